import Verif.Lemmas.TagKept

/-!
# How the table of annotation types is filled
-/

namespace GoRaml.Tag

open GoRaml GoRaml.Spec

/-- An annotation type to be unwrapped: the library, its location, the key and the type. -/
structure Entry where
  lib : Nat
  loc : String
  key : String
  type : Addr

def annAt (s : St) (i : Nat) (k : String) : Option Addr := (s.libs[i]?).bind fun l => OMap.get l.annotationTypes k

def tabAt (s : St) (loc nm : String) : Option Addr := (OMap.get s.fragAnnotationTypes loc).bind fun m => OMap.get m nm

/-- A run that unwraps the annotation types of the list, in this order, among other things. -/
inductive Steps : List Entry → St → St → Prop
  | nil (s : St) : Steps [] s s
  | idle {L : List Entry} {s s1 s2 : St} : Labels s s1 → (∀ i k, annAt s1 i k = annAt s i k) → (∀ loc nm, tabAt s1 loc nm = tabAt s loc nm) → Steps L s1 s2 → Steps L s s2
  | put {e : Entry} {L : List Entry} {s s1 s2 : St} {us : Addr} {u : Base} : Labels s s1 → s1.base us = some u →
      (∀ i k, annAt s1 i k = if i = e.lib ∧ k = e.key then some us else annAt s i k) →
      (∀ loc nm, tabAt s1 loc nm = if loc = e.loc ∧ nm = u.name then some e.type else tabAt s loc nm) → Steps L s1 s2 → Steps (e :: L) s s2

theorem Steps.append {L L' : List Entry} {s s1 s2 : St} (h : Steps L s s1) (k : Steps L' s1 s2) : Steps (L ++ L') s s2 := by
  induction h with
  | nil => exact k
  | idle h1 h2 h3 _ ih => exact .idle h1 h2 h3 (ih k)
  | put h1 h2 h3 h4 _ ih => exact .put h1 h2 h3 h4 (ih k)

theorem Steps.one_idle {s s' : St} (h1 : Labels s s') (h2 : ∀ i k, annAt s' i k = annAt s i k) (h3 : ∀ loc nm, tabAt s' loc nm = tabAt s loc nm) : Steps [] s s' := .idle h1 h2 h3 (.nil _)

theorem Steps.one_put {e : Entry} {s s' : St} {us : Addr} {u : Base} (h1 : Labels s s') (h2 : s'.base us = some u)
    (h3 : ∀ i k, annAt s' i k = if i = e.lib ∧ k = e.key then some us else annAt s i k)
    (h4 : ∀ loc nm, tabAt s' loc nm = if loc = e.loc ∧ nm = u.name then some e.type else tabAt s loc nm) : Steps [e] s s' := .put h1 h2 h3 h4 (.nil _)

theorem Steps.labels {L : List Entry} {s s' : St} (h : Steps L s s') : Labels s s' := by
  induction h with
  | nil => exact .refl _
  | idle h1 _ _ _ ih => exact h1.trans ih
  | put h1 _ _ _ _ ih => exact h1.trans ih

theorem Steps.ann {L : List Entry} {s s' : St} (h : Steps L s s') {i : Nat} {k : String} (hn : ∀ e ∈ L, i = e.lib → k ≠ e.key) : annAt s' i k = annAt s i k := by
  induction h with
  | nil => rfl
  | idle _ h2 _ _ ih => exact (ih hn).trans (h2 i k)
  | put _ _ h3 _ _ ih =>
    rw [ih fun e he => hn e (List.mem_cons_of_mem _ he), h3, if_neg fun h => hn _ List.mem_cons_self h.1 h.2]

/-- If each key leads to its own type in the end, the table has each type under its name. -/
theorem Steps.tab {L : List Entry} {s s' : St} (h : Steps L s s') (nm : Addr → String) (hb : ∀ e ∈ L, ∃ b, s.base e.type = some b ∧ b.name = nm e.type)
    (hp : L.Pairwise fun x y => (x.lib = y.lib → x.key ≠ y.key) ∧ (x.loc = y.loc → nm x.type ≠ nm y.type)) (ha : ∀ e ∈ L, annAt s' e.lib e.key = some e.type) :
    (∀ loc n, (∀ e ∈ L, loc = e.loc → n ≠ nm e.type) → tabAt s' loc n = tabAt s loc n) ∧ ∀ e ∈ L, tabAt s' e.loc (nm e.type) = some e.type := by
  have later : ∀ {L : List Entry} {s s1 : St}, Labels s s1 → (∀ e ∈ L, ∃ b, s.base e.type = some b ∧ b.name = nm e.type) → ∀ e ∈ L, ∃ b, s1.base e.type = some b ∧ b.name = nm e.type :=
    fun hl hb e he => by
      obtain ⟨b, h1, h2⟩ := hb e he
      obtain ⟨b', h3, h4, _⟩ := hl _ _ h1
      exact ⟨b', h3, h4.trans h2⟩
  induction h with
  | nil => exact ⟨fun _ _ _ => rfl, fun _ h => nomatch h⟩
  | idle h1 _ h3 _ ih =>
    obtain ⟨k1, k2⟩ := ih (later h1 hb) hp ha
    exact ⟨fun loc n hn => (k1 loc n hn).trans (h3 loc n), k2⟩
  | @put e L s s1 s2 us u h1 h2 h3 h4 h5 ih =>
    have hp := List.pairwise_cons.1 hp
    have hb1 := later h1 hb
    obtain ⟨k1, k2⟩ := ih (fun x hx => hb1 x (List.mem_cons_of_mem _ hx)) hp.2 fun x hx => ha x (List.mem_cons_of_mem _ hx)
    have hus : us = e.type := by
      have := ha e List.mem_cons_self
      rw [h5.ann fun x hx h => (hp.1 x hx).1 h, h3, if_pos ⟨rfl, rfl⟩] at this
      exact Option.some.inj this
    have hu : u.name = nm e.type := by
      obtain ⟨b, q1, q2⟩ := hb1 e List.mem_cons_self
      rw [← hus, h2] at q1
      cases q1
      exact q2
    refine ⟨fun loc n hn => ?_, fun x hx => ?_⟩
    · rw [k1 loc n fun x hx => hn x (List.mem_cons_of_mem _ hx), h4, if_neg fun h => hn e List.mem_cons_self h.1 (h.2.trans hu)]
    · rcases List.mem_cons.1 hx with rfl | hx
      · rw [k1 _ _ fun y hy h => (hp.1 y hy).2 h, h4, if_pos ⟨rfl, hu.symm⟩]
      · exact k2 x hx

theorem get_of_mem {α : Type} : ∀ {m : OMap α} {e : String × α}, (m.map (·.1)).Nodup → e ∈ m → OMap.get m e.1 = some e.2
  | x :: m, e, hn, he => by
    have hn := List.nodup_cons.1 hn
    rcases List.mem_cons.1 he with rfl | he
    · simp [OMap.get]
    · have : x.1 ≠ e.1 := fun h => hn.1 (List.mem_map.2 ⟨e, he, h.symm⟩)
      simp only [OMap.get, this, if_false]
      exact get_of_mem hn.2 he

/-! ## Unwrapping the fragments is such a run -/

theorem tabAt_put {s s' : St} {nm loc : String} {x : Addr} (e : s'.fragAnnotationTypes = putTypeInto s.fragAnnotationTypes nm loc x) (loc' nm' : String) :
    tabAt s' loc' nm' = if loc' = loc ∧ nm' = nm then some x else tabAt s loc' nm' := by
  unfold tabAt
  rw [e, putTypeInto, OMap.get_set]
  by_cases hl : loc' = loc
  · subst hl
    simp only [if_true, true_and, Option.bind_some, OMap.get_set]
    by_cases hn : nm' = nm
    · subst hn; simp
    · have hn' : ¬ nm = nm' := fun h => hn h.symm
      simp only [hn, hn', if_false]
      cases OMap.get s.fragAnnotationTypes loc' with
      | none => rfl
      | some m => rfl
  · have hl' : ¬ loc = loc' := fun h => hl h.symm
    simp [hl, hl']

theorem annAt_set {s s' : St} {j : Nat} {key : String} {us : Addr} {l : Lib} (hl : s.libs[j]? = some l)
    (e : s'.libs = s.libs.modify j fun l => { l with annotationTypes := OMap.set l.annotationTypes key us }) (i : Nat) (k : String) :
    annAt s' i k = if i = j ∧ k = key then some us else annAt s i k := by
  unfold annAt
  rw [e, List.getElem?_modify]
  by_cases hi : i = j
  · subst hi
    simp only [if_true, hl, true_and]
    by_cases hk : k = key
    · subst hk; simp; rw [OMap.get_set]; simp
    · have hk' : ¬ key = k := fun h => hk h.symm
      simp [hk]; rw [OMap.get_set]; simp [hk, hk']
  · have hi' : ¬ j = i := fun h => hi h.symm
    simp [hi, hi']

theorem annAt_types {s s' : St} {j : Nat} {key : String} {us : Addr}
    (e : s'.libs = s.libs.modify j fun l => { l with types := OMap.set l.types key us }) (i : Nat) (k : String) : annAt s' i k = annAt s i k := by
  unfold annAt
  rw [e, List.getElem?_modify]
  by_cases hi : j = i
  · subst hi
    cases s.libs[j]? <;> simp
  · simp [hi]

/-- Only annotation types matter. -/
def puts (c : Sect) (i : Nat) (loc : String) (L : List (String × Addr)) : List Entry :=
  match c with
  | .types => []
  | .annotationTypes => L.map fun ka => ⟨i, loc, ka.1, ka.2⟩

theorem unwrapType_steps {s s' : St} {n i : Nat} {c : Sect} {loc : String} {ka : String × Addr} (hi : i < s.libs.length) (e : unwrapType n c i loc ka s = (.ok (), s')) :
    s'.libs.length = s.libs.length ∧ Steps (puts c i loc [ka]) s s' := by
  unfold unwrapType at e
  obtain ⟨us, s1, e1, ea⟩ := M.bind_ok.1 e
  clear e
  obtain ⟨_, s2, e2, eb⟩ := M.bind_ok.1 ea
  clear ea
  obtain ⟨u, s3, e3, ec⟩ := M.bind_ok.1 eb
  clear eb
  have k : NKeep s s1 := by have := nkeep_unwrap n ka.2 s; rw [e1] at this; exact this
  have hb : s3 = s2 ∧ s2.base us = some u := by
    unfold Heap.getBase at e3
    cases h : s2.base us with
    | none => rw [h] at e3; cases e3
    | some b => rw [h] at e3; cases e3; exact ⟨rfl, rfl⟩
  obtain ⟨rfl, hu⟩ := hb
  cases e2
  have hl1 : s.libs[i]? = some s.libs[i] := List.getElem?_eq_getElem hi
  cases c with
  | types =>
    cases ec
    refine ⟨by simp [k.libs], Steps.one_idle (Labels.trans k.base (.same rfl)) (annAt_types (us := us) (j := i) (key := ka.1) ?_) (fun loc nm => ?_)⟩
    · show s1.libs.modify i _ = _
      rw [k.libs]
    · show (OMap.get s1.fragAnnotationTypes loc).bind _ = _
      rw [k.anns]; rfl
  | annotationTypes =>
    cases ec
    refine ⟨by simp [k.libs], Steps.one_put (us := us) (u := u) (Labels.trans k.base (.same rfl)) hu (annAt_set (us := us) hl1 ?_) (tabAt_put ?_)⟩
    · show s1.libs.modify i _ = _
      rw [k.libs]
    · show putTypeInto s1.fragAnnotationTypes _ _ _ = _
      rw [k.anns]

theorem unwrapTypes_steps {n i : Nat} {c : Sect} {loc : String} : ∀ (L : List (String × Addr)) {s s' : St}, i < s.libs.length → M.tryEach (unwrapType n c i loc) L s = (.ok (), s') →
    s'.libs.length = s.libs.length ∧ Steps (puts c i loc L) s s'
  | [], s, s', hi, e => by cases e; cases c <;> exact ⟨rfl, .nil _⟩
  | ka :: L, s, s', hi, e => by
    obtain ⟨s1, e1, e2⟩ := Kin.tryEach_ok e
    obtain ⟨h1, h2⟩ := unwrapType_steps hi e1
    obtain ⟨h3, h4⟩ := unwrapTypes_steps L (h1 ▸ hi) e2
    refine ⟨h3.trans h1, ?_⟩
    cases c with
    | types => exact h2.append h4
    | annotationTypes => exact h2.append h4

/-- The annotation types of a fragment. -/
def entries (s : St) : FragRef → List Entry
  | .library i => match s.libs[i]? with
    | some l => l.annotationTypes.map fun ka => ⟨i, l.location, ka.1, ka.2⟩
    | none => []
  | _ => []

theorem unwrapFragment_steps {s s' : St} {n : Nat} {f : FragRef} (e : unwrapFragment n f s = (.ok (), s')) : Steps (entries s f) s s' := by
  cases f with
  | library i =>
    cases hl : s.libs[i]? with
    | none => simp only [unwrapFragment, hl] at e; cases e
    | some l =>
      simp only [unwrapFragment, hl] at e
      have hi := (List.getElem?_eq_some_iff.1 hl).1
      replace e : M.tryEach (fun c => unwrapTypes n c i l) [.annotationTypes, .types] s = (.ok (), s') := e
      obtain ⟨s1, e1, e2⟩ := Kin.tryEach_ok e
      obtain ⟨s2, e3, e4⟩ := Kin.tryEach_ok e2
      cases e4
      obtain ⟨h1, h2⟩ := unwrapTypes_steps _ hi e1
      obtain ⟨_, h3⟩ := unwrapTypes_steps _ (h1 ▸ hi) e3
      have := h2.append h3
      simp only [entries, hl]
      rw [show puts .types i l.location (Sect.of .types l) = [] from rfl, List.append_nil] at this
      exact this
  | dataType i =>
    cases hd : s.dts[i]? with
    | none => simp only [unwrapFragment, hd] at e; cases e
    | some d =>
      simp only [unwrapFragment, hd] at e
      unfold unwrapDataType at e
      cases ha : d.shape with
      | none => rw [ha] at e; cases e
      | some a =>
        rw [ha] at e
        obtain ⟨us, s1, e1, ea⟩ := M.bind_ok.1 e
        clear e
        obtain ⟨_, s2, e2, eb⟩ := M.bind_ok.1 ea
        clear ea
        obtain ⟨u, s3, e3, ec⟩ := M.bind_ok.1 eb
        clear eb
        have k : NKeep s s1 := by have := nkeep_unwrap n a s; rw [e1] at this; exact this
        have hb : s3 = s2 := by
          unfold Heap.getBase at e3
          cases h : s2.base us with
          | none => rw [h] at e3; cases e3
          | some b => rw [h] at e3; cases e3; rfl
        subst hb
        cases e2
        cases ec
        show Steps [] s _
        refine Steps.one_idle (Labels.trans k.base (.same rfl)) (fun i k' => ?_) (fun loc nm => ?_)
        · show (s1.libs[i]?).bind _ = _
          rw [k.libs]; rfl
        · show (OMap.get s1.fragAnnotationTypes loc).bind _ = _
          rw [k.anns]; rfl
  | namedExample i => cases e; exact Steps.nil s

theorem unwrapFragments_steps {s0 : St} {n : Nat} : ∀ (fs : List FragRef) {s s' : St}, (∀ f ∈ fs, f ∈ s0.fragments.map (·.2)) → Once fs → Going s0 s fs →
    unwrapFragments n fs s = (.ok (), s') → Steps (fs.flatMap (entries s0)) s s'
  | [], _, _, _, _, g, e => by cases e; exact .nil _
  | f :: fs, s, s', hm, hn, g, e => by
    obtain ⟨s1, e1, e2⟩ := Kin.tryEach_ok e
    have hn := once_cons hn
    have he : entries s0 f = entries s f := by
      cases f with
      | library i => simp only [entries, g.libs i List.mem_cons_self]
      | dataType i => rfl
      | namedExample i => rfl
    rw [List.flatMap_cons, he]
    exact (unwrapFragment_steps e1).append
      (unwrapFragments_steps fs (fun x hx => hm x (List.mem_cons_of_mem _ hx)) hn.2 (unwrapFragment_going (hm f List.mem_cons_self) g hn.1 e1) e2)

/-- The same for `UnwrapShapes`; annotations get their types from the table. -/
theorem unwrapShapes_steps {K : Whole.Par} [K.Rec] {s s' : St} {n : Nat} {fs fs' : List FragRef} (hw : Whole.Wf K (Whole.cleared s)) (hm : ∀ f ∈ fs, f ∈ s.fragments.map (·.2))
    (hn : Once fs) (hf : ∀ f ∈ fs, Whole.FragThere (Whole.cleared s) f) (hf' : ∀ f ∈ fs', Whole.FragThere (Whole.cleared s) f)
    (hx : ∀ d ∈ s.domainExts, ∃ a, d.definedBy = some a) (hr : unwrapShapes n fs fs' s = (.ok (), s')) :
    ∃ s1, Steps (fs.flatMap (entries s)) (Whole.cleared s) s1 ∧ s'.libs = s1.libs ∧ s'.domainExts.map Whole.esig = s.domainExts.map Whole.esig ∧
      ∀ (i : Nat) d d', s.domainExts[i]? = some d → s'.domainExts[i]? = some d' → ∃ a b, d.definedBy = some a ∧ s.base a = some b ∧ d'.definedBy = tabAt s1 b.location b.name := by
  unfold unwrapShapes at hr
  obtain ⟨_, s0, e0, hr⟩ := M.bind_ok.1 hr
  cases e0
  have hr : (M.bind (unwrapFragments n fs) fun _ => M.bind (markFragments n fs') fun _ => unwrapDomainExtensions) (Whole.cleared s) = (.ok (), s') := hr
  obtain ⟨_, s1, e1, hr⟩ := M.bind_ok.1 hr
  obtain ⟨_, s2, e2, hr⟩ := M.bind_ok.1 hr
  have r1 := Whole.unwrapFragments_two (n := n) hw hf fun _ h => by cases h
  unfold Whole.Sound2 Whole.Safe at r1
  rw [e1] at r1
  obtain ⟨⟨w1, _⟩, k1, _⟩ := r1
  obtain ⟨lp, mk, _⟩ := Whole.Looping.fragments w1 fs' s1 s2 (.refl w1) (fun f h => (hf' f h).kept k1) e2
  have hexts : s2.domainExts = s.domainExts := lp.bigger.exts.trans k1.exts
  have hrun := Whole.unwrapDomainExtensions_run (s := s2) fun d hd' => by
    obtain ⟨a, ha⟩ := hx d (hexts ▸ hd')
    obtain ⟨b, hb⟩ := Whole.isBase_base (lp.wf.exts d hd' a ha)
    exact ⟨a, b, ha, hb⟩
  rw [hr] at hrun
  obtain ⟨_, _, _, e', p3, p4, p5, p6, p7⟩ := hrun
  simp only at p3 p7
  subst p3
  have g0 : Going s (Whole.cleared s) fs := ⟨Labels.same rfl, fun _ _ _ _ (h : OMap.get ([] : OMap (OMap Addr)) _ = some _) => (by simp [OMap.get] at h), fun _ _ => rfl⟩
  have st := unwrapFragments_steps fs hm hn g0 e1
  refine ⟨s1, st, lp.bigger.libs, by rw [← hexts]; exact p4, fun i d d' hd hd' => ?_⟩
  rw [← hexts] at hd
  obtain ⟨a, ha, b, m, h1, h2, h3⟩ := p7 trivial i (List.mem_range.2 (List.getElem?_eq_some_iff.1 hd).1) d d' hd hd'
  obtain ⟨b0, hb0⟩ := Whole.isBase_base (hw.exts d (hexts ▸ List.mem_of_getElem? hd) a ha)
  obtain ⟨b1, hb1, hn1, hl1⟩ := st.labels a b0 hb0
  obtain ⟨q, v, hb2, _⟩ := mk.old a b1 hb1
  rw [h1] at hb2
  cases hb2
  have hanns : s2.fragAnnotationTypes = s1.fragAnnotationTypes := lp.bigger.anns
  rw [hanns] at h2
  refine ⟨a, b0, ha, hb0, ?_⟩
  simp only at h2 h3
  rw [h3, tabAt, ← hl1, ← hn1, h2]
  rfl

end GoRaml.Tag
