import Verif.Lemmas.StillAll
import Verif.Lemmas.FlatAll
import Verif.Spec.Twice

/-!
# Unwrapping a model again
-/

namespace GoRaml.Still

open GoRaml GoRaml.Spec GoRaml.Load GoRaml.Whole

/-! ## Types that are unwrapped -/

/-- Only the tables of types have changed, and no file has been dropped from that of the annotation types. -/
structure Tab (t t' : St) : Prop where
  rest : t' = { t with fragTypes := t'.fragTypes, fragAnnotationTypes := t'.fragAnnotationTypes }
  keeps : ∀ k, OMap.get t.fragAnnotationTypes k ≠ none → OMap.get t'.fragAnnotationTypes k ≠ none

theorem Tab.refl (t : St) : Tab t t := ⟨rfl, fun _ h => h⟩

theorem Tab.trans {t t' t'' : St} (h : Tab t t') (k : Tab t' t'') : Tab t t'' := by
  refine ⟨?_, fun x hx => k.keeps x (h.keeps x hx)⟩
  have h1 := k.rest
  rw [h.rest] at h1
  exact h1

theorem Tab.base {t t' : St} (h : Tab t t') (a : Addr) : t'.base a = t.base a := by rw [h.rest]; rfl
theorem Tab.libs {t t' : St} (h : Tab t t') : t'.libs = t.libs := by rw [h.rest]
theorem Tab.fragments {t t' : St} (h : Tab t t') : t'.fragments = t.fragments := by rw [h.rest]
theorem Tab.dts {t t' : St} (h : Tab t t') : t'.dts = t.dts := by rw [h.rest]

theorem tryEach_cons {α σ : Type} {f : α → M σ Unit} {x : α} {l : List α} {s s1 s2 : σ} (e1 : f x s = (.ok (), s1)) (e2 : M.tryEach f l s1 = (.ok (), s2)) :
    M.tryEach f (x :: l) s = (.ok (), s2) := by
  unfold M.tryEach
  rw [M.bind_of_ok (show M.attempt (f x) s = (.ok (.ok ()), s1) by simp [M.attempt, e1]),
    M.bind_of_ok (show M.attempt (M.tryEach f l) s1 = (.ok (.ok ()), s2) by simp [M.attempt, e2])]
  rfl

theorem tryEach_ok {α σ : Type} {f : α → M σ Unit} {R : σ → σ → Prop} (hr : ∀ s, R s s) (ht : ∀ a b c, R a b → R b c → R a c) :
    ∀ (l : List α) (s : σ), (∀ x ∈ l, ∀ s', R s s' → ∃ s'', f x s' = (.ok (), s'') ∧ R s' s'') → ∃ s', M.tryEach f l s = (.ok (), s') ∧ R s s'
  | [], s, _ => ⟨s, rfl, hr s⟩
  | x :: l, s, h => by
    obtain ⟨s1, e1, r1⟩ := h x (by simp) s (hr s)
    obtain ⟨s2, e2, r2⟩ := tryEach_ok hr ht l s1 fun y hy s' hs' => h y (by simp [hy]) s' (ht _ _ _ r1 hs')
    exact ⟨s2, tryEach_cons e1 e2, ht _ _ _ r1 r2⟩

theorem set_same {α : Type} : ∀ {m : OMap α} {k : String} {v : α}, (m.map (·.1)).Nodup → (k, v) ∈ m → OMap.set m k v = m
  | [], _, _, _, h => by cases h
  | e :: m, k, v, hn, h => by
    obtain ⟨k1, v1⟩ := e
    simp only [List.map_cons, List.nodup_cons] at hn
    simp only [OMap.set]
    rcases List.mem_cons.1 h with h | h
    · cases h; simp
    · have : k1 ≠ k := fun e => hn.1 (e ▸ List.mem_map_of_mem (f := (·.1)) h)
      rw [if_neg this, set_same hn.2 h]

theorem modify_same {α : Type} {l : List α} {i : Nat} {x : α} {f : α → α} (hx : l[i]? = some x) (hf : f x = x) : l.modify i f = l := by
  apply List.ext_getElem?
  intro j
  rw [List.getElem?_modify]
  by_cases h : i = j
  · subst h; rw [hx]; simp [hf]
  · cases l[j]? <;> simp [h]

/-- The type is there and unwrapped. -/
def Done (t : St) (a : Addr) : Prop := ∃ b, t.base a = some b ∧ b.unwrapped = true ∧ b.shape ≠ none

theorem unwrap_again {t : St} {a : Addr} (h : Done t a) (n : Nat) : unwrap (n + 1) a t = (.ok a, t) := by
  obtain ⟨b, h1, h2, h3⟩ := h
  unfold unwrap
  rw [M.bind_of_ok (show Heap.getBase a t = (.ok b, t) by simp [Heap.getBase, h1])]
  cases hs : b.shape with
  | none => exact absurd hs h3
  | some q => simp [h2, M.ret]

theorem Done.tab {t t' : St} (h : Tab t t') {a : Addr} (d : Done t a) : Done t' a := by
  obtain ⟨b, h1, h2⟩ := d
  exact ⟨b, (h.base a).trans h1, h2⟩

theorem put_keeps (m : OMap (OMap Addr)) (name location : String) (a : Addr) :
    (∀ k, OMap.get m k ≠ none → OMap.get (putTypeInto m name location a) k ≠ none) ∧ OMap.get (putTypeInto m name location a) location ≠ none := by
  refine ⟨fun k hk => ?_, ?_⟩
  · rw [putTypeInto, OMap.get_set]
    split
    · simp
    · exact hk
  · rw [putTypeInto, OMap.get_set]; simp

theorem unwrapType_again {t : St} {n : Nat} {c : Sect} {i : Nat} {l : Lib} {loc : String} {ka : String × Addr} (hl : t.libs[i]? = some l) (hn : ((c.of l).map (·.1)).Nodup) (hk : ka ∈ c.of l)
    (hd : Done t ka.2) : ∃ t', unwrapType (n + 1) c i loc ka t = (.ok (), t') ∧ Tab t t' ∧ (c = .annotationTypes → OMap.get t'.fragAnnotationTypes loc ≠ none) := by
  unfold unwrapType
  rw [M.bind_of_ok (unwrap_again hd n)]
  have e : setType c i ka.1 ka.2 t = (.ok (), t) := by
    cases c with
    | types =>
      show (Out.ok (), ({ t with libs := t.libs.modify i fun l => { l with types := OMap.set l.types ka.1 ka.2 } } : St)) = _
      rw [modify_same hl (show ({ l with types := OMap.set l.types ka.1 ka.2 } : Lib) = l by rw [set_same (m := l.types) hn hk])]
    | annotationTypes =>
      show (Out.ok (), ({ t with libs := t.libs.modify i fun l => { l with annotationTypes := OMap.set l.annotationTypes ka.1 ka.2 } } : St)) = _
      rw [modify_same hl (show ({ l with annotationTypes := OMap.set l.annotationTypes ka.1 ka.2 } : Lib) = l by rw [set_same (m := l.annotationTypes) hn hk])]
  rw [M.bind_of_ok e]
  obtain ⟨b, h1, _⟩ := hd
  rw [M.bind_of_ok (show Heap.getBase ka.2 t = (.ok b, t) by simp [Heap.getBase, h1])]
  cases c with
  | types => exact ⟨_, rfl, ⟨rfl, fun _ h => h⟩, fun h => by cases h⟩
  | annotationTypes => exact ⟨_, rfl, ⟨rfl, (put_keeps _ _ _ _).1⟩, fun _ => (put_keeps _ _ _ _).2⟩

theorem unwrapTypes_again {n : Nat} {c : Sect} {i : Nat} {l : Lib} {t : St} (hl : t.libs[i]? = some l) (hn : ((c.of l).map (·.1)).Nodup) (hd : ∀ e ∈ c.of l, Done t e.2) :
    ∃ t', unwrapTypes (n + 1) c i l t = (.ok (), t') ∧ Tab t t' := by
  refine tryEach_ok Tab.refl (fun _ _ _ => Tab.trans) _ t fun x hx s' hs' => ?_
  obtain ⟨s'', e1, e2, _⟩ := unwrapType_again (n := n) (loc := l.location) (t := s') (by rw [hs'.libs]; exact hl) hn hx ((hd x hx).tab hs')
  exact ⟨s'', e1, e2⟩

theorem unwrapTypes_known {n : Nat} {i : Nat} {l : Lib} {t : St} (hl : t.libs[i]? = some l) (hn : (l.annotationTypes.map (·.1)).Nodup) (hd : ∀ e ∈ l.annotationTypes, Done t e.2)
    (hne : l.annotationTypes ≠ []) : ∃ t', unwrapTypes (n + 1) .annotationTypes i l t = (.ok (), t') ∧ Tab t t' ∧ OMap.get t'.fragAnnotationTypes l.location ≠ none := by
  unfold unwrapTypes Sect.of
  cases ha : l.annotationTypes with
  | nil => exact absurd ha hne
  | cons x xs =>
    have hx : x ∈ l.annotationTypes := by rw [ha]; simp
    obtain ⟨s1, e1, r1, k1⟩ := unwrapType_again (c := .annotationTypes) (n := n) (loc := l.location) hl hn hx (hd x hx)
    obtain ⟨s2, e2, r2⟩ := tryEach_ok (f := unwrapType (n + 1) .annotationTypes i l.location) Tab.refl (fun _ _ _ => Tab.trans) xs s1 fun y hy s' hs' => by
      have hy' : y ∈ l.annotationTypes := by rw [ha]; simp [hy]
      obtain ⟨s'', e1, e2, _⟩ := unwrapType_again (c := .annotationTypes) (n := n) (loc := l.location) (t := s') (by rw [hs'.libs, r1.libs]; exact hl) hn hy'
        ((hd y hy').tab (r1.trans hs'))
      exact ⟨s'', e1, e2⟩
    exact ⟨s2, tryEach_cons e1 e2, r1.trans r2, r2.keeps _ (k1 rfl)⟩

theorem tryBoth_ok {σ : Type} {m m' : M σ Unit} {s s1 s2 : σ} (h1 : m s = (.ok (), s1)) (h2 : m' s1 = (.ok (), s2)) : M.tryBoth m m' s = (.ok (), s2) := by
  simp [M.tryBoth, M.tryEach, M.bind, M.attempt, h1, h2, M.ret]

/-- What the model is like for which the tables are built again. -/
structure Settled (t : St) : Prop where
  named : Flat.Named t
  done : ∀ f, f ∈ t.fragments.map (·.2) → ∀ a ∈ typesOf t f, Done t a
  there : ∀ f, f ∈ t.fragments.map (·.2) → FragThere t f
  dts : ∀ (i : Nat) (d : DT), t.dts[i]? = some d → d.shape ≠ none

theorem FragThere.tab {t t' : St} (h : Tab t t') {f : FragRef} (hf : FragThere t f) : FragThere t' f := by
  cases f <;> simp only [FragThere, h.libs, h.dts] at hf ⊢ <;> exact hf

theorem Settled.tab {t t' : St} (h : Tab t t') (s : Settled t) : Settled t' := by
  refine ⟨fun l hl => s.named l (h.libs ▸ hl), fun f hf a ha => Done.tab h (s.done f (h.fragments ▸ hf) a ?_), fun f hf => FragThere.tab h (s.there f (h.fragments ▸ hf)),
    fun i d hd => s.dts i d (h.dts ▸ hd)⟩
  cases f <;> simp only [typesOf, h.libs, h.dts] at ha ⊢ <;> exact ha

theorem unwrapFragment_again {n : Nat} {f : FragRef} {t : St} (s : Settled t) (hm : f ∈ t.fragments.map (·.2)) : ∃ t', unwrapFragment (n + 1) f t = (.ok (), t') ∧ Tab t t' ∧
    ∀ i l, f = .library i → t.libs[i]? = some l → l.annotationTypes ≠ [] → OMap.get t'.fragAnnotationTypes l.location ≠ none := by
  have hf := s.there f hm
  cases f with
  | library i =>
    have hl : t.libs[i]? = some _ := List.getElem?_eq_getElem hf
    generalize t.libs[i] = l at hl
    have hd := s.done (.library i) hm
    simp only [typesOf, hl, Option.map_some, Option.getD_some, List.map_append, List.mem_append, List.mem_map] at hd
    have hn := s.named l (List.mem_of_getElem? hl)
    have hA : ∀ e ∈ l.annotationTypes, Done t e.2 := fun e he => hd e.2 (.inl ⟨e, he, rfl⟩)
    simp only [unwrapFragment, hl, unwrapLibrary]
    obtain ⟨t1, e1, r1, k1⟩ : ∃ t', unwrapTypes (n + 1) .annotationTypes i l t = (.ok (), t') ∧ Tab t t' ∧ (l.annotationTypes ≠ [] → OMap.get t'.fragAnnotationTypes l.location ≠ none) := by
      by_cases hne : l.annotationTypes = []
      · obtain ⟨t1, e1, r1⟩ := unwrapTypes_again (n := n) (c := .annotationTypes) hl hn.1 hA
        exact ⟨t1, e1, r1, fun h => absurd hne h⟩
      · obtain ⟨t1, e1, r1, k1⟩ := unwrapTypes_known (n := n) hl hn.1 hA hne
        exact ⟨t1, e1, r1, fun _ => k1⟩
    obtain ⟨t2, e2, r2⟩ := unwrapTypes_again (n := n) (c := .types) (t := t1) (by rw [r1.libs]; exact hl) hn.2 fun e he => (hd e.2 (.inr ⟨e, he, rfl⟩)).tab r1
    refine ⟨t2, tryBoth_ok e1 e2, r1.trans r2, fun j l' hj hl' hne => ?_⟩
    cases hj
    rw [hl] at hl'; cases hl'
    exact r2.keeps _ (k1 hne)
  | dataType i =>
    have hl : t.dts[i]? = some _ := List.getElem?_eq_getElem hf
    generalize t.dts[i] = d at hl
    cases ha : d.shape with
    | none => exact absurd ha (s.dts i d hl)
    | some a =>
      have hd : Done t a := s.done (.dataType i) hm a (by simp [typesOf, hl, ha])
      simp only [unwrapFragment, hl, unwrapDataType, ha]
      rw [M.bind_of_ok (unwrap_again hd n)]
      have e : M.modify (fun h : St => { h with dts := h.dts.modify i fun d => { d with shape := some a } }) t = (.ok (), t) := by
        show (Out.ok (), ({ t with dts := t.dts.modify i fun d => { d with shape := some a } } : St)) = _
        rw [modify_same hl (by cases d; simp_all)]
      rw [M.bind_of_ok e]
      obtain ⟨b, h1, _⟩ := hd
      rw [M.bind_of_ok (show Heap.getBase a t = (.ok b, t) by simp [Heap.getBase, h1])]
      exact ⟨_, rfl, ⟨rfl, fun _ h => h⟩, fun _ _ h => by cases h⟩
  | namedExample i => exact ⟨t, rfl, .refl _, fun _ _ h => by cases h⟩

theorem unwrapFragments_again {n : Nat} : ∀ (fs : List FragRef) (t : St), Settled t → (∀ f ∈ fs, f ∈ t.fragments.map (·.2)) → ∃ t', unwrapFragments (n + 1) fs t = (.ok (), t') ∧ Tab t t' ∧
    ∀ i l, .library i ∈ fs → t.libs[i]? = some l → l.annotationTypes ≠ [] → OMap.get t'.fragAnnotationTypes l.location ≠ none
  | [], t, _, _ => ⟨t, rfl, .refl _, fun _ _ h => by cases h⟩
  | f :: fs, t, s, hf => by
    obtain ⟨t1, e1, r1, k1⟩ := unwrapFragment_again (n := n) s (hf f (by simp))
    obtain ⟨t2, e2, r2, k2⟩ := unwrapFragments_again fs t1 (s.tab r1) fun g hg => r1.fragments ▸ hf g (by simp [hg])
    refine ⟨t2, ?_, r1.trans r2, fun i l hi hl hne => ?_⟩
    · exact tryEach_cons e1 e2
    · rcases List.mem_cons.1 hi with h | h
      · exact r2.keeps _ (k1 i l h.symm hl hne)
      · exact k2 i l h (by rw [r1.libs]; exact hl) hne

/-! ## Marking -/

/-- Types and maps may have been added. -/
structure Grown (t t' : St) : Prop where
  bases : t.bases <+: t'.bases
  pmaps : t.pmaps <+: t'.pmaps
  fmaps : t.fmaps <+: t'.fmaps
  ppmaps : t'.ppmaps = t.ppmaps
  slices : t'.slices = t.slices
  libs : t'.libs = t.libs
  dts : t'.dts = t.dts
  fragments : t'.fragments = t.fragments
  exts : t'.domainExts = t.domainExts
  anns : t'.fragAnnotationTypes = t.fragAnnotationTypes
  shapes : ∃ l, t'.shapes = t.shapes ++ l ∧ ∀ x ∈ l, t.bases.length ≤ x

theorem Grown.refl (t : St) : Grown t t :=
  ⟨List.prefix_rfl, List.prefix_rfl, List.prefix_rfl, rfl, rfl, rfl, rfl, rfl, rfl, rfl, [], by simp, fun x hx => by cases hx⟩

theorem Grown.trans {t u v : St} (h : Grown t u) (k : Grown u v) : Grown t v := by
  refine ⟨h.bases.trans k.bases, h.pmaps.trans k.pmaps, h.fmaps.trans k.fmaps, k.ppmaps.trans h.ppmaps, k.slices.trans h.slices, k.libs.trans h.libs, k.dts.trans h.dts,
    k.fragments.trans h.fragments, k.exts.trans h.exts, k.anns.trans h.anns, ?_⟩
  obtain ⟨l, h1, h2⟩ := h.shapes
  obtain ⟨m, h3, h4⟩ := k.shapes
  refine ⟨l ++ m, by rw [h3, h1, List.append_assoc], fun x hx => ?_⟩
  rcases List.mem_append.1 hx with h | h'
  · exact h2 x h
  · exact Nat.le_trans h.bases.length_le (h4 x h')

/-- Marking a type that is left visited makes a recursive type, which the loop drops. -/
theorem mark_left {h : St} {a : Addr} {b : Base} (hb : h.base a = some b) (hu : b.unwrapped = true) (hv : b.visited = true) :
    ∃ r h', (∀ n, mark (n + 1) a h = (.ok (some r), h')) ∧ Grown h h' := by
  have key : ∀ n, mark (n + 1) a h = mark 1 a h := fun n => by
    unfold mark
    rw [M.bind_of_ok (show Heap.getBase a h = (.ok b, h) by simp [Heap.getBase, hb]), M.bind_of_ok (show Heap.getBase a h = (.ok b, h) by simp [Heap.getBase, hb])]
    simp only [hu, hv, Bool.not_true, Bool.false_eq_true, if_false, if_true]
  have one : ∃ r h', mark 1 a h = (.ok (some r), h') ∧ Grown h h' := by
    unfold mark
    rw [M.bind_of_ok (show Heap.getBase a h = (.ok b, h) by simp [Heap.getBase, hb])]
    simp only [hu, hv, Bool.not_true, Bool.false_eq_true, if_false, if_true]
    unfold makeRecursive makeBaseShape
    simp only [M.bind, Heap.newID, Heap.newFacets, Heap.newProps, Heap.newBase, Heap.putShape, Heap.updBase, M.ret, modify_last]
    exact ⟨_, _, rfl, ⟨List.prefix_append _ _, List.prefix_append _ _, List.prefix_append _ _, rfl, rfl, rfl, rfl, rfl, rfl, rfl, [_], rfl, fun x hx => by
      rw [List.mem_singleton.1 hx]⟩⟩
  obtain ⟨r, h', h1, h2⟩ := one
  exact ⟨r, h', fun n => (key n).trans h1, h2⟩

/-- The state of the loop. -/
structure Going (t g : St) : Prop where
  inv : Whole.MInv t g
  vis : SameVis t g
  grown : Grown t g

theorem Going.refl (t : St) : Going t t := ⟨⟨.refl _ _, fun y hy => by rw [visitedAt_none hy]; simp⟩, .refl _, .refl _⟩

/-- Left visited and unwrapped, or with nothing left to mark. -/
def Idle (t : St) (a : Addr) : Prop := (∃ b, t.base a = some b ∧ b.unwrapped = true ∧ b.visited = true) ∨ Calm t a

/-- With enough fuel, the outcome is always the same success. -/
def EndsOk (m : Nat → M St Unit) (t g : St) : Prop := ∃ N g', (∀ n, N ≤ n → m n g = (.ok (), g')) ∧ Going t g'

theorem mark_idle {t g : St} (s : Going t g) {a : Addr} (i : Idle t a) : EndsOk (fun n => M.bind (mark n a) fun _ => M.ret ()) t g := by
  rcases i with ⟨b, hb, hu, hv⟩ | c
  · obtain ⟨q, v, hg, _⟩ := s.inv.marked.old a b hb
    have hvg : v = true := by
      have := s.vis.old a (by rw [hb]; simp)
      simpa [visitedAt, hg, hb, hv] using this
    subst hvg
    obtain ⟨r, g', h1, h2⟩ := mark_left hg hu rfl
    have p := Whole.mark_ends 1 g a (some r) g' s.inv (h1 0)
    refine ⟨1, g', fun n hn => ?_, ⟨s.inv.step p.marked p.vis, sameVis_fwd s.vis s.inv.marked p.vis, s.grown.trans h2⟩⟩
    obtain ⟨n, rfl⟩ : ∃ k, n = k + 1 := ⟨n - 1, by omega⟩
    show M.bind (mark (n + 1) a) _ g = _
    rw [M.bind_of_ok (h1 n)]
    rfl
  · obtain ⟨N, hN⟩ := mark_calm (c.marked s.inv.marked (noMore s.vis))
    refine ⟨N, g, fun n hn => ?_, s⟩
    show M.bind (mark n a) _ g = _
    rw [M.bind_of_ok (hN n hn)]
    rfl

theorem forEach_ends {α : Type} {f : Nat → α → M St Unit} {t : St} : ∀ (l : List α) (g : St), Going t g → (∀ x ∈ l, ∀ g, Going t g → EndsOk (fun n => f n x) t g) →
    EndsOk (fun n => M.forEach (f n) l) t g
  | [], g, s, _ => ⟨0, g, fun _ _ => rfl, s⟩
  | x :: l, g, s, h => by
    obtain ⟨N, g1, h1, s1⟩ := h x (by simp) g s
    obtain ⟨N', g2, h2, s2⟩ := forEach_ends l g1 s1 fun y hy => h y (by simp [hy])
    refine ⟨max N N', g2, fun n hn => ?_, s2⟩
    show M.forEach (f n) (x :: l) g = _
    unfold M.forEach
    rw [M.bind_of_ok (h1 n (by omega))]
    exact h2 n (by omega)

theorem markFragments_again {t : St} (hs : Settled t) {fs : List FragRef} (hf : ∀ f ∈ fs, f ∈ t.fragments.map (·.2)) (hi : ∀ f ∈ fs, ∀ a ∈ typesOf t f, Idle t a) : EndsOk (fun n => markFragments n fs) t t := by
  refine forEach_ends _ _ (.refl t) fun f hfs g s => ?_
  have ht := hs.there f (hf f hfs)
  have hi := hi f hfs
  cases f with
  | library i =>
    have hl : t.libs[i]? = some _ := List.getElem?_eq_getElem ht
    generalize t.libs[i] = l at hl
    simp only [typesOf, hl, Option.map_some, Option.getD_some, List.mem_map] at hi
    have := forEach_ends (f := fun n (ka : String × Addr) => M.bind (mark n ka.2) fun _ => M.ret ()) (l.annotationTypes ++ l.types) g s fun x hx g s => mark_idle s (hi x.2 ⟨x, hx, rfl⟩)
    simpa only [EndsOk, markFragment, s.grown.libs, hl] using this
  | dataType i =>
    have hl : t.dts[i]? = some _ := List.getElem?_eq_getElem ht
    generalize t.dts[i] = d at hl
    cases ha : d.shape with
    | none => exact absurd ha (hs.dts i d hl)
    | some a =>
      have := mark_idle s (hi a (by simp [typesOf, hl, ha]))
      simpa only [EndsOk, markFragment, s.grown.dts, hl, Option.bind_some, ha] using this
  | namedExample i => exact ⟨0, g, fun _ _ => rfl, s⟩

end GoRaml.Still
