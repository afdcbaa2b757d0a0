import Verif.Lemmas.KinLine
import Verif.Lemmas.ApartResolve

/-!
# Declared types of a family stay declared

Unwrapping puts what it returns for a type in the place of the type.  For the members of a family this is the type itself.
-/

namespace GoRaml.Kin

open GoRaml GoRaml.Spec GoRaml.Whole

/-- The types of the line of a type that is referred to are referred to. -/
theorem descends_referred {s : St} {a x : Addr} (ha : ReferredTo s a) (h : Descends s a x) : ReferredTo s x := by
  induction h with
  | refl => exact ha
  | step _ hx _ =>
    cases hx with
    | «alias» h1 h2 => exact .alias h1 h2
    | included h1 h2 h3 h4 h5 => exact .dataType (List.mem_of_getElem? h4) h5
    | @parent b h1 h2 h3 h4 =>
      cases hi : b.inherits with
      | none => rw [hi] at h4; cases h4
      | some j =>
        rw [hi] at h4
        simp only [St.slice] at h4
        cases hj : s.slices[j]? with
        | none => rw [hj] at h4; cases h4
        | some l => rw [hj] at h4; exact .parent h1 hi hj (by simp only [Option.getD_some] at h4; rw [h4]; simp)

/-- In a model whose types share nothing the line of a type that is referred to is on its own. -/
theorem onTheirOwn {s : St} (hi : Apart.I s) {a : Addr} (ha : ReferredTo s a) : OnTheirOwn s (Descends s a) where
  fresh d b _ hb := hi.fresh d b hb
  items x b f i hb hs h hD := hi.share.parts _ _ (.items hb hs h) (descends_referred ha hD)
  members x b i e l p hb hs hl hp hD := by
    obtain ⟨j, hj⟩ := List.mem_iff_getElem?.1 hp
    exact hi.share.parts _ _ (.member hb hs hl hj) (descends_referred ha hD)
  props m hm e he hD := by
    obtain ⟨j, hj⟩ := List.mem_iff_getElem?.1 hm
    exact hi.share.parts _ _ (.property (k := e.1) hj he) (descends_referred ha hD)
  pats m hm e he hD := by
    obtain ⟨j, hj⟩ := List.mem_iff_getElem?.1 hm
    exact hi.share.parts _ _ (.pattern (k := e.1) hj he) (descends_referred ha hD)
  defs x b f i d c hb hs h _ hc he := by
    have := hi.share.maps _ _ i (.properties hb hs h) (.facets hc he)
    cases this

theorem DeclaredType.referred {s : St} {a : Addr} (h : DeclaredType s a) : ReferredTo s a := by
  cases h with
  | type h1 h2 h3 => exact .type (List.mem_of_getElem? h2) h3
  | annotationType h1 h2 h3 => exact .annotationType (List.mem_of_getElem? h2) h3
  | dataType h1 h2 h3 => exact .dataType (List.mem_of_getElem? h2) h3

variable {F : Fam} {rk : Addr → Nat} {K : Par}

/-- The names of the types of a library are different, in each section. -/
def OneEach (s : St) : Prop := ∀ l ∈ s.libs, ∀ c, (names c l).Nodup

/-- The declared members of the family are still there. -/
def There (F : Fam) (s : St) : Prop := ∀ (i : Nat) l0, F.s0.libs[i]? = some l0 → ∃ l, s.libs[i]? = some l ∧ ∀ c e, e ∈ Sect.of c l0 → F.D e.2 → e ∈ Sect.of c l

/-- What the loops keep. -/
structure Held (F : Fam) (K : Par) (s : St) : Prop where
  all : All F s
  wf : Wf K s
  libs : s.libs.map sig = F.s0.libs.map sig
  there : There F s

/-- The run keeps this. -/
def Stay (F : Fam) (K : Par) (m : M St Unit) (s : St) : Prop := ∀ s', m s = (.ok (), s') → Calm F s' → Held F K s' ∧ Kept s s'

theorem Stay.congr {m m' : M St Unit} {s : St} (e : m' s = m s) (h : Stay F K m s) : Stay F K m' s := fun s' hr => h s' (e ▸ hr)

theorem Stay.tryEach {α : Type} {f : α → M St Unit} {s0 : St} : ∀ l s, (∀ x ∈ l, Sticks (f x)) → (∀ x ∈ l, ∀ s, Held F K s → Kept s0 s → Stay F K (f x) s) → Held F K s → Kept s0 s →
    Stay F K (M.tryEach f l) s
  | [], s, _, _, hw, _ => fun s' hr _ => by cases hr; exact ⟨hw, .refl _⟩
  | x :: xs, s, hf, h, hw, hk => fun s' hr hcalm => by
    obtain ⟨s1, h1, h2⟩ := tryEach_ok hr
    have hf' : ∀ x ∈ xs, Sticks (f x) := fun y hy => hf y (by simp [hy])
    have hc1 : Calm F s1 := Calm.before (Sticks.tryEach xs hf') (by rw [h2]; exact hcalm)
    obtain ⟨w1, k1⟩ := h x (by simp) s hw hk s1 h1 hc1
    obtain ⟨w2, k2⟩ := Stay.tryEach xs s1 hf' (fun y hy => h y (by simp [hy])) w1 (hk.trans k1) s' h2 hcalm
    exact ⟨w2, k1.trans k2⟩

theorem mem_set_of {α : Type} {m : OMap α} {k : String} {v : α} {e : String × α} (he : e ∈ m) (h : e.1 = k → e.2 = v) : e ∈ OMap.set m k v := by
  induction m with
  | nil => cases he
  | cons y m ih =>
    obtain ⟨k', v'⟩ := y
    unfold OMap.set
    split
    · rename_i hk
      rcases List.mem_cons.1 he with rfl | he
      · have := h hk; simp only at this; rw [this, hk]; simp
      · exact List.mem_cons_of_mem _ he
    · rcases List.mem_cons.1 he with rfl | he
      · simp
      · exact List.mem_cons_of_mem _ (ih he)

theorem key_inj {α : Type} {m : OMap α} {e e' : String × α} (h : (m.map (·.1)).Nodup) (he : e ∈ m) (he' : e' ∈ m) (hk : e.1 = e'.1) : e = e' := by
  induction m with
  | nil => cases he
  | cons y m ih =>
    simp only [List.map_cons, List.nodup_cons] at h
    rcases List.mem_cons.1 he with h1 | h1
    · rcases List.mem_cons.1 he' with h2 | h2
      · exact h1.trans h2.symm
      · exact absurd (List.mem_map.2 ⟨e', h2, hk.symm.trans (congrArg _ h1)⟩) h.1
    · rcases List.mem_cons.1 he' with h2 | h2
      · exact absurd (List.mem_map.2 ⟨e, h1, hk.trans (congrArg _ h2)⟩) h.1
      · exact ih h.2 h1 h2

section
variable (hc : Closed F rk)
include hc

theorem unwrapType_stay {n : Nat} {c : Sect} {i : Nat} {loc : String} {ka : String × Addr} {s : St} (hw : Held F K s) (ha : IsBase s ka.2)
    (hk : ∀ l, s.libs[i]? = some l → ka.1 ∈ names c l) (hone : ∀ l0 e, F.s0.libs[i]? = some l0 → e ∈ c.of l0 → F.D e.2 → e.1 = ka.1 → e = ka) :
    Stay F K (unwrapType n c i loc ka) s := fun s' hr hcalm => by
  obtain ⟨w', _, _⟩ := unwrapType_go hc hw.all () s' hr hcalm
  have hs := unwrapType_sound (n := n) (location := loc) hw.wf ha hk
  unfold Whole.Sound Safe at hs
  rw [hr] at hs
  obtain ⟨hs1, hs2, _⟩ := hs
  refine ⟨⟨w', hs1, hs2.libs.trans hw.libs, ?_⟩, hs2⟩
  unfold unwrapType at hr
  obtain ⟨us, s1, e1, hr1⟩ := M.bind_ok.1 hr
  obtain ⟨_, s2, e2, hr2⟩ := M.bind_ok.1 hr1
  obtain ⟨u, s3, e3, hr3⟩ := M.bind_ok.1 hr2
  clear hr hr1 hr2
  have f1 := unwrap_fine n ka.2 s hw.wf ha
  unfold Fine Safe at f1
  rw [e1] at f1
  have hl1 : s1.libs = s.libs := f1.2.1.libs
  have e3' : s3 = s2 := by
    unfold Heap.getBase at e3
    split at e3 <;> cases e3
    rfl
  subst e3'
  have hl' : s'.libs = s3.libs ∧ s'.bases = s3.bases := by
    cases c
    · cases hr3; exact ⟨rfl, rfl⟩
    · cases hr3; exact ⟨rfl, rfl⟩
  have hc1 : Calm F s1 := fun d hd h => by
    refine hcalm d hd ?_
    have e : s3.bases = s1.bases := by cases e2; rfl
    unfold visitedAt St.base at h ⊢
    rw [hl'.2, e]; exact h
  obtain ⟨_, _, q1⟩ := unwrap_go hc n ka.2 s hw.all us s1 e1 hc1
  intro j l0 h0
  obtain ⟨l, h1, h2⟩ := hw.there j l0 h0
  rw [← hl1] at h1
  rw [hl'.1]
  have hset : ∀ e, i = j → e ∈ c.of l0 → F.D e.2 → e ∈ OMap.set (c.of l) ka.1 us := fun e hij he hD => by
    subst hij
    refine mem_set_of (h2 c e he hD) fun h => ?_
    have := hone l0 e h0 he hD h
    subst this
    exact ((q1.1 hD).1).symm
  cases e2
  simp only [List.getElem?_modify, h1, Option.map_eq_map, Option.map_some, Option.some.injEq, exists_eq_left']
  intro c' e he hD
  by_cases hij : i = j
  · rw [if_pos hij]
    cases c <;> cases c' <;> first | exact hset e hij he hD | exact h2 _ e he hD
  · rw [if_neg hij]
    exact h2 c' e he hD

theorem unwrapTypes_stay {n : Nat} {c : Sect} {i : Nat} {l : Lib} {s s0 : St} (hone : OneEach F.s0) (hw : Held F K s) (hk : Kept s0 s) (hl : s0.libs[i]? = some l)
    (h0 : There F s0) (hlibs : s0.libs.map sig = F.s0.libs.map sig) (hb : ∀ e ∈ c.of l, IsBase s0 e.2) : Stay F K (unwrapTypes n c i l) s := by
  refine Stay.tryEach (s0 := s0) _ _ (fun ka _ => sticks_unwrapType n c i _ ka) (fun ka hka t wt kt => ?_) hw hk
  refine unwrapType_stay hc wt (kt.isBase (hb ka hka)) (fun l1 h1 => ?_) fun l0 e h1 he hD hke => ?_
  · obtain ⟨l2, h4, h5⟩ := kt.lib hl
    rw [h1] at h4
    cases h4
    rw [names_sig h5]
    exact List.mem_map_of_mem hka
  · obtain ⟨l', h2, h3⟩ := h0 i l0 h1
    rw [hl] at h2; cases h2
    have hn : (names c l).Nodup := by
      have e : (s0.libs.map sig)[i]? = (F.s0.libs.map sig)[i]? := by rw [hlibs]
      rw [List.getElem?_map, List.getElem?_map, hl, h1] at e
      simp only [Option.map_some, Option.some.injEq] at e
      rw [names_sig e]
      exact hone l0 (List.mem_of_getElem? h1) c
    exact key_inj hn (h3 c e he hD) hka hke

theorem unwrapLibrary_stay {n : Nat} {i : Nat} {l : Lib} {s : St} (hone : OneEach F.s0) (hw : Held F K s) (hl : s.libs[i]? = some l) : Stay F K (unwrapLibrary n i l) s := by
  have hin := hw.wf.lib l (List.mem_of_getElem? hl)
  refine Stay.tryEach (f := id) (s0 := s) _ _ (fun m hm => ?_) (fun m hm t w k => ?_) hw (.refl s)
  · rcases List.mem_cons.1 hm with rfl | hm
    · exact sticks_unwrapTypes _ _ _ _
    · rw [List.mem_singleton.1 hm]; exact sticks_unwrapTypes _ _ _ _
  · rcases List.mem_cons.1 hm with rfl | hm
    · exact unwrapTypes_stay hc hone w k hl hw.there hw.libs hin.annotationTypes
    · rw [List.mem_singleton.1 hm]; exact unwrapTypes_stay hc hone w k hl hw.there hw.libs hin.types

theorem unwrapDataType_stay {n : Nat} {i : Nat} {d : DT} {s : St} (hw : Held F K s) (hd : s.dts[i]? = some d) : Stay F K (unwrapDataType n i d) s := fun s' hr hcalm => by
  obtain ⟨w', _, _⟩ := unwrapDataType_go hc hw.all hd () s' hr hcalm
  have hdt := hw.wf.dt d (List.mem_of_getElem? hd)
  have hs := unwrapDataType_sound (n := n) (i := i) hw.wf hdt
  unfold Whole.Sound Safe at hs
  rw [hr] at hs
  obtain ⟨hs1, hs2, _⟩ := hs
  refine ⟨⟨w', hs1, hs2.libs.trans hw.libs, ?_⟩, hs2⟩
  obtain ⟨a, ha, hb⟩ := hdt.shape
  unfold unwrapDataType at hr
  rw [ha] at hr
  obtain ⟨us, s1, e1, hr1⟩ := M.bind_ok.1 hr
  obtain ⟨_, s2, e2, hr2⟩ := M.bind_ok.1 hr1
  obtain ⟨u, s3, e3, hr3⟩ := M.bind_ok.1 hr2
  clear hr hr1 hr2
  have f1 := unwrap_fine n a s hw.wf hb
  unfold Fine Safe at f1
  rw [e1] at f1
  have hl1 : s1.libs = s.libs := f1.2.1.libs
  have e3' : s3 = s2 := by
    unfold Heap.getBase at e3
    split at e3 <;> cases e3
    rfl
  subst e3'
  cases hr3
  cases e2
  intro j l0 h0
  exact hl1 ▸ hw.there j l0 h0

theorem unwrapFragment_stay {n : Nat} {f : FragRef} {s : St} (hone : OneEach F.s0) (hw : Held F K s) : Stay F K (unwrapFragment n f) s := by
  cases f with
  | library i =>
    cases hl : s.libs[i]? with
    | none => exact Stay.congr (m := M.panic "nil pointer dereference") (by simp only [unwrapFragment, hl]; rfl) fun s' hr => by cases hr
    | some l => exact Stay.congr (m := unwrapLibrary n i l) (by simp only [unwrapFragment, hl]) (unwrapLibrary_stay hc hone hw hl)
  | dataType i =>
    cases hl : s.dts[i]? with
    | none => exact Stay.congr (m := M.panic "nil pointer dereference") (by simp only [unwrapFragment, hl]; rfl) fun s' hr => by cases hr
    | some l => exact Stay.congr (m := unwrapDataType n i l) (by simp only [unwrapFragment, hl]) (unwrapDataType_stay hc hw hl)
  | namedExample i => exact fun s' hr _ => by cases hr; exact ⟨hw, .refl _⟩

/-- After a successful `UnwrapShapes` the declared members of a family are still declared. -/
theorem unwrapShapes_declared [K.Rec] {s s' : St} {n : Nat} {fs fs' : List FragRef} (hone : OneEach s) (hw : Wf K (cleared s)) (hf : ∀ f ∈ fs, FragThere (cleared s) f)
    (hf' : ∀ f ∈ fs', FragThere (cleared s) f) (hx : ∀ d ∈ s.domainExts, ∃ a, d.definedBy = some a)
    (hs0 : F.s0 = s) (hi : Inv F s) (hr : unwrapShapes n fs fs' s = (.ok (), s')) (hcalm : Calm F s')
    {d : Addr} (hd : F.D d) (hdecl : DeclaredType s d) : DeclaredType s' d := by
  unfold unwrapShapes at hr
  obtain ⟨_, s0, e0, hr⟩ := M.bind_ok.1 hr
  cases e0
  have hr : (M.bind (unwrapFragments n fs) fun _ => M.bind (markFragments n fs') fun _ => unwrapDomainExtensions) (cleared s) = (.ok (), s') := hr
  obtain ⟨_, s1, e1, hr⟩ := M.bind_ok.1 hr
  obtain ⟨_, s2, e2, hr⟩ := M.bind_ok.1 hr
  have r1 := unwrapFragments_two (n := n) hw hf fun _ h => by cases h
  unfold Sound2 Safe at r1
  rw [e1] at r1
  obtain ⟨⟨w1, d1⟩, k1, _⟩ := r1
  obtain ⟨lp, mk, _⟩ := Looping.fragments w1 fs' s1 s2 (.refl w1) (fun f h => (hf' f h).kept k1) e2
  have hexts : s2.domainExts = s.domainExts := lp.bigger.exts.trans k1.exts
  have hrun := unwrapDomainExtensions_run (s := s2) fun d hd' => by
    obtain ⟨a, ha⟩ := hx d (hexts ▸ hd')
    obtain ⟨b, hb⟩ := isBase_base (lp.wf.exts d hd' a ha)
    exact ⟨a, b, ha, hb⟩
  rw [hr] at hrun
  obtain ⟨_, _, _, e', p3, _⟩ := hrun
  simp only at p3
  subst p3
  have w0 : Held F K (cleared s) :=
    ⟨⟨hi.other rfl rfl rfl rfl rfl, fun d hd => .inl (by rw [hs0]; rfl)⟩, hw, by rw [hs0]; rfl, fun i l h => ⟨l, by rw [hs0] at h; exact h, fun _ _ h _ => h⟩⟩
  have alive : ∀ d, F.D d → s1.base d ≠ none := fun d hd h => by
    have : d < s.bases.length := hi.len d hd
    have h2 : s.bases.length ≤ s1.bases.length := k1.longer.bases
    unfold St.base at h
    rw [List.getElem?_eq_none_iff] at h
    exact absurd (Nat.lt_of_lt_of_le this h2) (Nat.not_lt.2 h)
  have c1 : Calm F s1 := fun d hd => by
    rw [← lp.vis.old d (alive d hd)]
    exact hcalm d hd
  obtain ⟨w1', _⟩ := Stay.tryEach (s0 := cleared s) _ _ (fun f _ => sticks_unwrapFragment n f) (fun _ _ _ w _ => unwrapFragment_stay hc (hs0 ▸ hone) w) w0 (.refl _) s1 e1 c1
  have hfr : s2.fragments = s.fragments := lp.bigger.fragments.trans k1.fragments
  have hli : s2.libs = s1.libs := lp.bigger.libs
  cases hdecl with
  | @type k i l e h1 h2 h3 =>
    obtain ⟨l', h4, h5⟩ := w1'.there i l (by rw [hs0]; exact h2)
    exact .type (k := k) (i := i) (l := l') (by show _ ∈ s2.fragments; rw [hfr]; exact h1) (by show s2.libs[i]? = _; rw [hli]; exact h4) (h5 .types e h3 hd)
  | @annotationType k i l e h1 h2 h3 =>
    obtain ⟨l', h4, h5⟩ := w1'.there i l (by rw [hs0]; exact h2)
    exact .annotationType (k := k) (i := i) (l := l') (by show _ ∈ s2.fragments; rw [hfr]; exact h1) (by show s2.libs[i]? = _; rw [hli]; exact h4) (h5 .annotationTypes e h3 hd)
  | @dataType k i dt a h1 h2 h3 =>
    obtain ⟨d', h4, h5⟩ := w1'.all.1.dts i dt d (by rw [hs0]; exact h2) h3 hd
    obtain ⟨rest, hrest⟩ := lp.bigger.dts
    refine .dataType (k := k) (i := i) (d := d') (by show _ ∈ s2.fragments; rw [hfr]; exact h1) ?_ h5
    show s2.dts[i]? = _
    rw [← hrest, List.getElem?_append_left (List.getElem?_eq_some_iff.1 h4).1]
    exact h4

end

end GoRaml.Kin
