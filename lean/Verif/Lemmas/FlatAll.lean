import Verif.Lemmas.Flat
import Verif.Lemmas.Fuel
import Verif.Lemmas.WholeAll
import Verif.Lemmas.WholeExt
import Verif.Props.Mark

/-!
# Unwrapping all types without inheritance (C77)

Fragments, recursion marking, and the whole of `UnwrapShapes`.
-/

namespace GoRaml.Flat

open GoRaml Spec

variable {h0 h : St}

/-- The state between the calls of `UnwrapShape`. -/
structure Inv (h0 : St) (k : Nat) (h : St) : Prop where
  u : U h0 h
  few : Few h k
  closed : ∀ z b, h0.base z = some b → b.alias = none → Up h z → ∀ y, Refers h0 z y → Up h y
  libs : h.libs = h0.libs
  dts : h.dts = h0.dts
  exts : h.domainExts = h0.domainExts

/-- What unwrapping a fragment achieves: a type is flagged, or an annotation type is stored under its location and name. -/
inductive Item where
  | up (a : Addr)
  | stored (location name : String)

/-- It is achieved. -/
def Item.Holds (h : St) : Item → Prop
  | .up a => Up h a
  | .stored location name => ∃ m a, OMap.get h.fragAnnotationTypes location = some m ∧ OMap.get m name = some a

/-- The computation succeeds, keeps the invariant and what has been achieved, and achieves `S`. -/
def Step (h0 : St) (k : Nat) (S : Item → Prop) (m : M St Unit) : Prop :=
  ∀ h, Inv h0 k h → ∃ h', m h = (.ok (), h') ∧ Inv h0 k h' ∧ (∀ x : Item, x.Holds h → x.Holds h') ∧ ∀ x : Item, S x → x.Holds h'

theorem Step.tryEach {α : Type} {k : Nat} {f : α → M St Unit} {S : α → Item → Prop} : ∀ (l : List α), (∀ x ∈ l, Step h0 k (S x) (f x)) →
    Step h0 k (fun y => ∃ x ∈ l, S x y) (M.tryEach f l)
  | [], _ => fun h i => ⟨h, rfl, i, fun _ h => h, fun x hx => by obtain ⟨_, h, _⟩ := hx; cases h⟩
  | x :: xs, hs => fun h i => by
    obtain ⟨h1, r1, i1, m1, s1⟩ := hs x (by simp) h i
    obtain ⟨h2, r2, i2, m2, s2⟩ := Step.tryEach xs (fun y hy => hs y (by simp [hy])) h1 i1
    refine ⟨h2, ?_, i2, fun y hy => m2 y (m1 y hy), fun y hy => ?_⟩
    · simp only [M.tryEach, M.bind, M.attempt, r1, r2, M.ret]
    · obtain ⟨z, hz, hy⟩ := hy
      rcases List.mem_cons.1 hz with rfl | hz
      · exact m2 y (s1 y hy)
      · exact s2 y ⟨z, hz, hy⟩

theorem Inv.same {k : Nat} {h' : St} (i : Inv h0 k h) (hb : h'.bases = h.bases) (h1 : h'.pmaps = h.pmaps) (h2 : h'.ppmaps = h.ppmaps) (h3 : h'.slices = h.slices)
    (hl : h'.libs = h.libs) (hd : h'.dts = h.dts) (hx : h'.domainExts = h.domainExts) : Inv h0 k h' ∧ ∀ x, Up h x ↔ Up h' x := by
  have hu : ∀ x, Up h x ↔ Up h' x := fun x => by simp only [Up, St.base, hb]
  refine ⟨⟨i.u.tables hb h1 h2 h3, ?_, fun z b hz ha hz' y hy => (hu y).1 (i.closed z b hz ha ((hu z).2 hz') y hy), hl.trans i.libs, hd.trans i.dts, hx.trans i.exts⟩, hu⟩
  obtain ⟨L, e1, e2⟩ := i.few
  exact ⟨L, e1, fun x b hb' => e2 x b (by simpa only [St.base, hb] using hb')⟩

theorem unwrap_step (st : Start h0) {L n k : Nat} (hL : Bounded h0 L) (hn : k + L < n) {a : Addr} (ha : (h0.base a).isSome) (i : Inv h0 k h) :
    ∃ h', unwrap n a h = (.ok a, h') ∧ Inv h0 k h' ∧ (∀ x : Item, x.Holds h → x.Holds h') ∧ Up h' a ∧ ∀ b, h0.base a = some b → ∃ b', h'.base a = some b' ∧ b'.name = b.name ∧ b'.location = b.location := by
  obtain ⟨h', r, p, u⟩ := unwrap_flat st hL n k hn h a i.u i.few ha
  refine ⟨h', r, ⟨p.u, i.few.post i.u p, fun z b hz hza hz' y hy => ?_, p.libs.trans i.libs, p.dts.trans i.dts, p.exts.trans i.exts⟩, fun x hx => ?_, u, fun b hb => p.u.name hb⟩
  rotate_left
  · cases x with
    | up x => exact p.mono x hx
    | stored l k => simpa only [Item.Holds, p.anns] using hx
  by_cases h1 : Up h z
  · exact p.mono y (i.closed z b hz hza h1 y hy)
  · exact p.closed z b hz hza hz' h1 y hy

theorem set_same {α : Type} {m : OMap α} {k : String} {v : α} (h : OMap.get m k = some v) : OMap.set m k v = m := by
  induction m with
  | nil => cases h
  | cons e m ih =>
    obtain ⟨k1, v1⟩ := e
    simp only [OMap.get] at h
    simp only [OMap.set]
    by_cases hk : k1 = k
    · rw [if_pos hk] at h ⊢; cases h; rw [hk]
    · rw [if_neg hk] at h ⊢; rw [ih h]

/-- The names in each section of a library are different. -/
def Named (h0 : St) : Prop := ∀ l ∈ h0.libs, (l.annotationTypes.map (·.1)).Nodup ∧ (l.types.map (·.1)).Nodup

theorem holds_same {g g' : St} (hu : ∀ x, Up g x ↔ Up g' x) (ht : ∀ l k m a, OMap.get g.fragAnnotationTypes l = some m → OMap.get m k = some a →
    ∃ m' a', OMap.get g'.fragAnnotationTypes l = some m' ∧ OMap.get m' k = some a') (x : Item) (h : x.Holds g) : x.Holds g' := by
  cases x with
  | up x => exact (hu x).1 h
  | stored l k => obtain ⟨m, a, h1, h2⟩ := h; exact ht l k m a h1 h2

theorem holds_put {t : OMap (OMap Addr)} {name location : String} {a : Addr} {l k : String} {m : OMap Addr} {x : Addr} (h1 : OMap.get t l = some m) (h2 : OMap.get m k = some x) :
    ∃ m' a', OMap.get (putTypeInto t name location a) l = some m' ∧ OMap.get m' k = some a' := by
  unfold putTypeInto
  rw [OMap.get_set]
  split
  · rename_i h
    subst h
    rw [h1, Option.getD_some]
    by_cases hk : k = name
    · exact ⟨_, a, rfl, by rw [OMap.get_set]; simp [hk]⟩
    · exact ⟨_, x, rfl, by rw [OMap.get_set]; simp [hk, h2]⟩
  · exact ⟨m, x, h1, h2⟩

theorem put_holds {t : OMap (OMap Addr)} {name location : String} {a : Addr} : ∃ m' a', OMap.get (putTypeInto t name location a) location = some m' ∧ OMap.get m' name = some a' := by
  unfold putTypeInto
  refine ⟨_, a, by rw [OMap.get_set, if_pos rfl], by rw [OMap.get_set, if_pos rfl]⟩

theorem unwrapType_step (st : Start h0) (hnm : Named h0) {L n k : Nat} (hL : Bounded h0 L) (hn : k + L < n) {c : Sect} {i : Nat} {l : Lib} {loc : String} {ka : String × Addr}
    (hl : h0.libs[i]? = some l) (hka : ka ∈ c.of l) (ha : (h0.base ka.2).isSome) : Step h0 k (fun y => y = .up ka.2 ∨ (c = .annotationTypes ∧ ∃ b, h0.base ka.2 = some b ∧ y = .stored loc b.name))
      (unwrapType n c i loc ka) := by
  intro h inv
  obtain ⟨h1, r1, i1, m1, u1, nm⟩ := unwrap_step st hL hn ha inv
  obtain ⟨b, hb, _⟩ := u1
  obtain ⟨n1, n2⟩ := hnm l (List.mem_of_getElem? hl)
  cases c with
  | types =>
    have hset : setType .types i ka.1 ka.2 h1 = (.ok (), h1) := by
      unfold setType M.modify
      have : h1.libs.modify i (fun l => { l with types := OMap.set l.types ka.1 ka.2 }) = h1.libs := by
        refine modify_self fun x hx => ?_
        rw [i1.libs, hl] at hx; cases hx
        rw [set_same ((OMap.mem_iff_get n2 _ _).1 hka)]
      simp only
      rw [this]
    obtain ⟨j1, j2⟩ := i1.same (h' := { h1 with fragTypes := putTypeInto h1.fragTypes b.name loc ka.2 }) rfl rfl rfl rfl rfl rfl rfl
    refine ⟨_, (M.bind_of_ok r1).trans ((M.bind_of_ok hset).trans ((M.bind_of_ok (getBase_ok.2 ⟨hb, rfl⟩)).trans rfl)), j1,
      fun x hx => holds_same j2 (fun _ _ m a h1 h2 => ⟨m, a, h1, h2⟩) x (m1 x hx), ?_⟩
    rintro x (rfl | ⟨h, _⟩)
    · exact (j2 ka.2).1 ⟨b, hb, ‹_›⟩
    · cases h
  | annotationTypes =>
    have hset : setType .annotationTypes i ka.1 ka.2 h1 = (.ok (), h1) := by
      unfold setType M.modify
      have : h1.libs.modify i (fun l => { l with annotationTypes := OMap.set l.annotationTypes ka.1 ka.2 }) = h1.libs := by
        refine modify_self fun x hx => ?_
        rw [i1.libs, hl] at hx; cases hx
        rw [set_same ((OMap.mem_iff_get n1 _ _).1 hka)]
      simp only
      rw [this]
    obtain ⟨j1, j2⟩ := i1.same (h' := { h1 with fragAnnotationTypes := putTypeInto h1.fragAnnotationTypes b.name loc ka.2 }) rfl rfl rfl rfl rfl rfl rfl
    refine ⟨_, (M.bind_of_ok r1).trans ((M.bind_of_ok hset).trans ((M.bind_of_ok (getBase_ok.2 ⟨hb, rfl⟩)).trans rfl)), j1,
      fun x hx => holds_same j2 (fun _ _ _ _ h1 h2 => holds_put h1 h2) x (m1 x hx), ?_⟩
    rintro x (rfl | ⟨_, b0, h2, rfl⟩)
    · exact (j2 ka.2).1 ⟨b, hb, ‹_›⟩
    · obtain ⟨b', h3, h4, _⟩ := nm b0 h2
      rw [hb] at h3; cases h3
      rw [← h4]
      exact put_holds

/-- The fragment is there, and its types are. -/
def Has (h0 : St) : FragRef → Prop
  | .library i => ∃ l, h0.libs[i]? = some l ∧ (∀ e ∈ l.annotationTypes, (h0.base e.2).isSome) ∧ ∀ e ∈ l.types, (h0.base e.2).isSome
  | .dataType i => ∃ d a, h0.dts[i]? = some d ∧ d.shape = some a ∧ (h0.base a).isSome
  | .namedExample _ => True

/-- What unwrapping the fragment achieves. -/
def Aims (h0 : St) (f : FragRef) : Item → Prop
  | .up a => a ∈ Whole.typesOf h0 f
  | .stored location name => ∃ i l, f = .library i ∧ h0.libs[i]? = some l ∧ location = l.location ∧ ∃ e ∈ l.annotationTypes, ∃ b, h0.base e.2 = some b ∧ b.name = name

theorem Step.mono {k : Nat} {S S' : Item → Prop} {m : M St Unit} (s : Step h0 k S m) (h : ∀ x, S' x → S x) : Step h0 k S' m := fun g i => by
  obtain ⟨h', r, i', m', s'⟩ := s g i
  exact ⟨h', r, i', m', fun x hx => s' x (h x hx)⟩

theorem unwrapFragment_step (st : Start h0) (hnm : Named h0) {L n k : Nat} (hL : Bounded h0 L) (hn : k + L < n) {f : FragRef} (hf : Has h0 f) :
    Step h0 k (Aims h0 f) (unwrapFragment n f) := by
  cases f with
  | library i =>
    obtain ⟨l, hl, h1, h2⟩ := hf
    have s1 : Step h0 k _ (unwrapTypes n .annotationTypes i l) :=
      Step.tryEach _ fun ka hka => unwrapType_step st hnm hL hn (c := .annotationTypes) hl hka (h1 ka hka)
    have s2 : Step h0 k _ (unwrapTypes n .types i l) :=
      Step.tryEach _ fun ka hka => unwrapType_step st hnm hL hn (c := .types) hl hka (h2 ka hka)
    intro h inv
    have e : unwrapFragment n (.library i) h = unwrapLibrary n i l h := by simp only [unwrapFragment, inv.libs, hl]
    rw [e]
    obtain ⟨g1, r1, i1, m1, f1⟩ := s1 h inv
    obtain ⟨g2, r2, i2, m2, f2⟩ := s2 g1 i1
    refine ⟨g2, ?_, i2, fun x hx => m2 x (m1 x hx), fun y hy => ?_⟩
    · simp only [unwrapLibrary, M.tryBoth, M.tryEach, M.bind, M.attempt, id, r1, r2, M.ret]
    · cases y with
      | up y =>
        simp only [Aims, Whole.typesOf, hl, Option.map_some, Option.getD_some, List.mem_map, List.mem_append] at hy
        obtain ⟨e, he | he, rfl⟩ := hy
        · exact m2 _ (f1 _ ⟨e, he, .inl rfl⟩)
        · exact f2 _ ⟨e, he, .inl rfl⟩
      | stored loc name =>
        obtain ⟨j, l', h1, h2, rfl, e, he, b, hb, rfl⟩ := hy
        cases h1
        rw [hl] at h2; cases h2
        exact m2 _ (f1 _ ⟨e, he, .inr ⟨rfl, b, hb, rfl⟩⟩)
  | dataType i =>
    obtain ⟨d, a, hd, hs, ha⟩ := hf
    intro h inv
    have e : unwrapFragment n (.dataType i) h = unwrapDataType n i d h := by simp only [unwrapFragment, inv.dts, hd]
    rw [e]
    unfold unwrapDataType
    simp only [hs]
    obtain ⟨h1, r1, i1, m1, u1, _⟩ := unwrap_step st hL hn ha inv
    obtain ⟨b, hb, hu⟩ := u1
    have hset : (M.modify fun h : St => { h with dts := h.dts.modify i fun d => { d with shape := some a } }) h1 = (.ok (), h1) := by
      unfold M.modify
      have : h1.dts.modify i (fun d => { d with shape := some a }) = h1.dts := by
        refine modify_self fun x hx => ?_
        rw [i1.dts, hd] at hx; cases hx
        rw [← hs]
      simp only
      rw [this]
    obtain ⟨j1, j2⟩ := i1.same (h' := { h1 with fragTypes := putTypeInto h1.fragTypes b.name d.location a }) rfl rfl rfl rfl rfl rfl rfl
    refine ⟨_, (M.bind_of_ok r1).trans ((M.bind_of_ok hset).trans ((M.bind_of_ok (getBase_ok.2 ⟨hb, rfl⟩)).trans rfl)), j1,
      fun x hx => holds_same j2 (fun _ _ m a h1 h2 => ⟨m, a, h1, h2⟩) x (m1 x hx), ?_⟩
    intro x hx
    cases x with
    | up x =>
      simp only [Aims, Whole.typesOf, hd, Option.bind_some, hs, Option.map_some, Option.getD_some, List.mem_singleton] at hx
      subst hx
      exact (j2 x).1 ⟨b, hb, hu⟩
    | stored _ _ => obtain ⟨_, _, h, _⟩ := hx; cases h
  | namedExample i => exact fun h inv => ⟨h, rfl, inv, fun _ h => h, fun x hx => by
      cases x with
      | up _ => cases hx
      | stored _ _ => obtain ⟨_, _, h, _⟩ := hx; cases h⟩

theorem unwrapFragments_step (st : Start h0) (hnm : Named h0) {L n k : Nat} (hL : Bounded h0 L) (hn : k + L < n) {fs : List FragRef} (hf : ∀ f ∈ fs, Has h0 f) :
    Step h0 k (fun y => ∃ f ∈ fs, Aims h0 f y) (unwrapFragments n fs) :=
  Step.tryEach _ fun f hm => unwrapFragment_step st hnm hL hn (hf f hm)

/-! ## Before and after -/

theorem start_u (st : Start h0) : U h0 h0 where
  pmaps := rfl
  ppmaps := rfl
  slices := rfl
  gone := fun _ h => h
  raw := fun _ _ h _ => h
  plain := fun x b hb _ => ⟨b.unwrapped, hb⟩
  aliases := fun x b hb ha => by
    obtain ⟨t, ht⟩ := Option.ne_none_iff_exists'.1 ha
    obtain ⟨⟨q, _, h1, _⟩, h2⟩ := st.plain.aliases x b t hb ht
    exact ⟨b, q, q, hb, ⟨(st.fresh x b hb).2, rfl, rfl⟩, ⟨st.plain.facets x b hb, (st.plain.parents x b hb).2⟩, h1, h1, rfl, fun y hy => absurd (show Refers h0 x y from ⟨q, by simp [St.shapeAt, hb, h1], hy⟩) (h2 y)⟩

theorem start_inv (st : Start h0) : Inv h0 h0.bases.length h0 := by
  refine ⟨start_u st, ⟨List.range h0.bases.length, by simp, fun x b hb _ => List.mem_range.2 (lt_of_get hb)⟩, fun z b hb _ hu => ?_, rfl, rfl, rfl⟩
  obtain ⟨c, h1, h2⟩ := hu
  rw [(st.fresh z c h1).1] at h2; cases h2

theorem exists_bounded (h0 : St) : ∃ L, Bounded h0 L := by
  have key : ∀ {α : Type} (l : List (List α)), ∃ L, ∀ m ∈ l, m.length < L := by
    intro α l
    induction l with
    | nil => exact ⟨0, fun _ h => by cases h⟩
    | cons x l ih =>
      obtain ⟨L, hL⟩ := ih
      refine ⟨L + x.length + 1, fun m hm => ?_⟩
      rcases List.mem_cons.1 hm with rfl | h
      · omega
      · have := hL m h; omega
  obtain ⟨L1, e1⟩ := key h0.pmaps
  obtain ⟨L2, e2⟩ := key h0.ppmaps
  obtain ⟨L3, e3⟩ := key h0.slices
  refine ⟨L1 + L2 + L3 + 1, fun p => ?_, fun p => ?_, fun p => ?_⟩
  · cases p with
    | none => simp [St.props]
    | some i =>
      simp only [St.props]
      cases hi : h0.pmaps[i]? with
      | none => simp
      | some m => have := e1 m (List.mem_of_getElem? hi); simp; omega
  · cases p with
    | none => simp [St.patProps]
    | some i =>
      simp only [St.patProps]
      cases hi : h0.ppmaps[i]? with
      | none => simp
      | some m => have := e2 m (List.mem_of_getElem? hi); simp; omega
  · cases p with
    | none => simp [St.slice]
    | some i =>
      simp only [St.slice]
      cases hi : h0.slices[i]? with
      | none => simp
      | some m => have := e3 m (List.mem_of_getElem? hi); simp; omega

theorem Inv.none_visited (st : Start h0) {k : Nat} (i : Inv h0 k h) : NoneVisited h := by
  intro x b hb
  by_cases hu : b.unwrapped = true
  · cases hx : h0.base x with
    | none => rw [i.u.gone x hx] at hb; cases hb
    | some b0 =>
      by_cases ha : b0.alias = none
      · obtain ⟨v, h1⟩ := i.u.plain x b0 hx ha
        rw [hb] at h1; cases h1
        exact (st.fresh x b0 hx).2
      · obtain ⟨c, _, _, h1, h2, _⟩ := i.u.aliases x b0 hx ha
        rw [hb] at h1; cases h1
        exact h2.1
  · exact (st.fresh x b (i.u.raw x b hb (by simpa using hu))).2

theorem Inv.ready (st : Start h0) {k : Nat} (i : Inv h0 k h) : ReadySet h (Up h) := by
  rintro x ⟨b, hb, hu⟩
  have hf : h.props b.facetDefs = [] ∧ ∀ y, Refers h x y → Up h y := by
    rw [i.u.props]
    cases hx : h0.base x with
    | none => rw [i.u.gone x hx] at hb; cases hb
    | some b0 =>
      by_cases ha : b0.alias = none
      · obtain ⟨v, h1⟩ := i.u.plain x b0 hx ha
        rw [hb] at h1; cases h1
        refine ⟨st.plain.facets x b0 hx, fun y hy => i.closed x b0 hx ha ⟨_, hb, hu⟩ y ?_⟩
        obtain ⟨q, h1, h2⟩ := hy
        exact ⟨q, by simp only [St.shapeAt, hb, hx, Option.bind_some] at h1 ⊢; exact h1, i.u.edge.1 h2⟩
      · obtain ⟨c, q0, q, h1, _, h3, _, h5, _, h7⟩ := i.u.aliases x b0 hx ha
        rw [hb] at h1; cases h1
        refine ⟨h3.1, fun y hy => ?_⟩
        obtain ⟨q', k1, k2⟩ := hy
        simp only [St.shapeAt, hb, Option.bind_some, h5] at k1
        cases k1
        obtain ⟨z, bz, e1, e2, e3, e4, _⟩ := h7 y (i.u.edge.1 k2)
        exact i.closed z bz e1 e2 e3 y e4
  refine ⟨b, hb, hu, fun y hy => ?_, fun p hp => by rw [hf.1] at hp; cases hp⟩
  cases hy with
  | refers hr => exact hf.2 y hr
  | facet h1 h2 =>
    rw [hb] at h1; cases h1
    rw [hf.1] at h2; cases h2

/-! ## Recursion marking -/

/-- With enough fuel the computation ends in `h'` without an error. -/
def Runs (m : Nat → M St Unit) (h h' : St) : Prop := ∃ N, ∀ n, N ≤ n → m n h = (.ok (), h')

theorem Runs.bind {m m' : Nat → M St Unit} {h h' h'' : St} (r : Runs m h h') (r' : Runs m' h' h'') : Runs (fun n => M.bind (m n) fun _ => m' n) h h'' := by
  obtain ⟨N, e⟩ := r
  obtain ⟨N', e'⟩ := r'
  exact ⟨max N N', fun n hn => (M.bind_of_ok (e n (by omega))).trans (e' n (by omega))⟩

theorem Runs.forEach {α : Type} {I : St → Prop} {f : Nat → α → M St Unit} : ∀ (l : List α), (∀ x ∈ l, ∀ h, I h → ∃ h', Runs (fun n => f n x) h h' ∧ I h') → ∀ h, I h →
    ∃ h', Runs (fun n => M.forEach (f n) l) h h' ∧ I h'
  | [], _, h, i => ⟨h, ⟨0, fun _ _ => rfl⟩, i⟩
  | x :: xs, hs, h, i => by
    obtain ⟨h1, r1, i1⟩ := hs x (by simp) h i
    obtain ⟨h2, r2, i2⟩ := Runs.forEach xs (fun y hy => hs y (by simp [hy])) h1 i1
    exact ⟨h2, r1.bind r2, i2⟩

section
variable {K : Whole.Par} [K.Rec]

/-- The state between the calls of recursion marking; `h1` is the one before the first. -/
structure Marking (K : Whole.Par) (h1 h : St) : Prop where
  visited : NoneVisited h
  ready : ∃ S, ReadySet h S ∧ ∀ x, Up h1 x → S x
  wf : Whole.Wf K h
  bigger : Whole.Bigger h1 h

theorem mark_runs {h1 : St} {a : Addr} (ha : Up h1 a) (i : Marking K h1 h) : ∃ h', Runs (fun n => M.bind (mark n a) fun _ => M.ret ()) h h' ∧ Marking K h1 h' := by
  obtain ⟨S, hS, hup⟩ := i.ready
  obtain ⟨h', r⟩ := Props.c30_marking_terminates (h := h) (a := a) ⟨S, hup a ha, hS⟩ i.visited (Nat.le_refl _)
  obtain ⟨_, _, mk, nv⟩ := Props.c30_no_infinite_path i.visited r
  obtain ⟨b, hb, _⟩ := hS a (hup a ha)
  have f := Whole.mark_fine (K := K) (2 * h.bases.length + 2) a h i.wf (lt_of_get hb)
  unfold Whole.Fine Whole.Safe at f
  rw [r] at f
  refine ⟨h', ⟨2 * h.bases.length + 2, fun n hn => ?_⟩, nv, ⟨Extend h h' S, hS.marked mk, fun x hx => .inl (hup x hx)⟩, f.1, i.bigger.trans f.2.1⟩
  have e := Fuel.mark_at _ n hn a h (by rw [r]; simp)
  rw [r] at e
  exact (M.bind_of_ok e).trans rfl

theorem markFragment_runs {h1 : St} {f : FragRef} (hf : Whole.FragThere h1 f) (hs : ∀ i, f = .dataType i → ∃ d a, h1.dts[i]? = some d ∧ d.shape = some a)
    (hu : ∀ x ∈ Whole.typesOf h1 f, Up h1 x) (i : Marking K h1 h) : ∃ h', Runs (fun n => markFragment n f) h h' ∧ Marking K h1 h' := by
  cases f with
  | library j =>
    have hl : h1.libs[j]? = some _ := List.getElem?_eq_getElem hf
    obtain ⟨h', r, i'⟩ := Runs.forEach (I := Marking K h1) (f := fun n (ka : String × Addr) => M.bind (mark n ka.2) fun _ => M.ret ())
      (h1.libs[j].annotationTypes ++ h1.libs[j].types) (fun ka hka g ig => mark_runs (hu ka.2 (by
        simp only [Whole.typesOf, hl, Option.map_some, Option.getD_some]; exact List.mem_map.2 ⟨ka, hka, rfl⟩)) ig) h i
    obtain ⟨N, e⟩ := r
    exact ⟨h', ⟨N, fun n hn => by simp only [markFragment, i.bigger.libs, hl]; exact e n hn⟩, i'⟩
  | dataType j =>
    obtain ⟨d, a, h2, h3⟩ := hs j rfl
    obtain ⟨h', ⟨N, e⟩, i'⟩ := mark_runs (hu a (by simp [Whole.typesOf, h2, h3])) i
    obtain ⟨t, ht⟩ := i.bigger.dts
    have hd : h.dts[j]? = some d := by rw [← ht, List.getElem?_append_left hf]; exact h2
    exact ⟨h', ⟨N, fun n hn => by simp only [markFragment, hd, Option.bind_some, h3]; exact e n hn⟩, i'⟩
  | namedExample j => exact ⟨h, ⟨0, fun _ _ => rfl⟩, i⟩

/-! ## More fuel for the fragments -/

theorem tryEach_at {α : Type} {f f' : α → M St Unit} (h : ∀ x s, Fuel.At (f x) (f' x) s) : ∀ (l : List α) (s : St), Fuel.At (M.tryEach f l) (M.tryEach f' l) s
  | [], _ => .rfl
  | x :: xs, s => (h x s).attempt.bind fun _ s' => (tryEach_at h xs s').attempt.bind fun _ _ => .rfl

theorem unwrapTypes_at {n m : Nat} (hn : n ≤ m) (c : Sect) (i : Nat) (l : Lib) (s : St) : Fuel.At (unwrapTypes n c i l) (unwrapTypes m c i l) s :=
  tryEach_at (fun ka s => (Fuel.unwrap_at n m hn ka.2 s).bind fun _ _ => .rfl) _ s

theorem unwrapFragment_at {n m : Nat} (hn : n ≤ m) (f : FragRef) (s : St) : Fuel.At (unwrapFragment n f) (unwrapFragment m f) s := by
  cases f with
  | library i =>
    intro hd
    simp only [unwrapFragment] at hd ⊢
    cases hl : s.libs[i]? with
    | none => rfl
    | some l =>
      rw [hl] at hd
      simp only at hd ⊢
      exact ((unwrapTypes_at hn .annotationTypes i l s).attempt.bind fun _ s' => ((((unwrapTypes_at hn .types i l s').attempt.bind fun _ _ => .rfl).attempt).bind fun _ _ => .rfl)) hd
  | dataType i =>
    intro hd
    simp only [unwrapFragment] at hd ⊢
    cases hl : s.dts[i]? with
    | none => rfl
    | some d =>
      rw [hl] at hd
      simp only [unwrapDataType] at hd ⊢
      cases hs : d.shape with
      | none => rfl
      | some a =>
        rw [hs] at hd
        simp only at hd ⊢
        exact ((Fuel.unwrap_at n m hn a s).bind fun _ _ => .rfl) hd
  | namedExample i => exact .rfl

theorem unwrapFragments_at {n m : Nat} (hn : n ≤ m) (fs : List FragRef) (s : St) : Fuel.At (unwrapFragments n fs) (unwrapFragments m fs) s :=
  tryEach_at (fun f s => unwrapFragment_at hn f s) fs s

/-! ## The whole -/

/-- Unwrapping and marking end without an error; then the annotations are linked anew. -/
theorem unwrapShapes_flat (st : Start h0) (hnm : Named h0) (hw : Whole.Wf K (Whole.cleared h0)) {fs fs' : List FragRef} (hf : ∀ f ∈ fs, Has h0 f) (hp : ∀ f ∈ fs', f ∈ fs) :
    ∃ h1 h2 N, (Inv h0 h0.bases.length h1 ∧ Whole.Wf K h1 ∧ Marked (Whole.There h1) h1 h2 ∧ NoneVisited h2 ∧
        ∀ f ∈ fs, ∀ x : String × String, Aims h0 f (.stored x.1 x.2) → Item.Holds h2 (.stored x.1 x.2)) ∧ h2.domainExts = h0.domainExts ∧ Whole.Wf K h2 ∧
      ∀ n, N ≤ n → unwrapShapes n fs fs' h0 = unwrapDomainExtensions h2 := by
  obtain ⟨L, hL⟩ := exists_bounded h0
  have i0 : Inv h0 h0.bases.length (Whole.cleared h0) := ((start_inv st).same (h' := Whole.cleared h0) rfl rfl rfl rfl rfl rfl rfl).1
  obtain ⟨h1, r1, i1, _, u1⟩ := unwrapFragments_step st hnm hL (n := h0.bases.length + L + 1) (by omega) hf (Whole.cleared h0) i0
  have there : ∀ f ∈ fs, Whole.FragThere (Whole.cleared h0) f := fun f hm => by
    have := hf f hm
    cases f with
    | library i => obtain ⟨l, e, _⟩ := this; exact (List.getElem?_eq_some_iff.1 e).1
    | dataType i => obtain ⟨d, _, e, _⟩ := this; exact (List.getElem?_eq_some_iff.1 e).1
    | namedExample i => trivial
  have hs := Whole.unwrapFragments_sound (n := h0.bases.length + L + 1) hw there
  unfold Whole.Sound Whole.Safe at hs
  rw [r1] at hs
  have same : ∀ f, Whole.typesOf h1 f = Whole.typesOf h0 f := fun f => by
    cases f <;> simp only [Whole.typesOf, i1.libs, i1.dts]
  obtain ⟨h2, r2, i2⟩ := Runs.forEach (I := Marking K h1) (f := fun n f => markFragment n f) fs' (fun f hm g ig => by
    have hin := hp f hm
    refine markFragment_runs ((there f hin).kept hs.2.1) (fun i e => ?_) (fun x hx => u1 (.up x) ⟨f, hin, by rw [same] at hx; exact hx⟩) ig
    subst e
    obtain ⟨d, a, e1, e2, _⟩ := hf _ hin
    exact ⟨d, a, by rw [i1.dts]; exact e1, e2⟩) h1 ⟨i1.none_visited st, ⟨Up h1, i1.ready st, fun _ h => h⟩, hs.1, .refl h1⟩
  obtain ⟨N, e2⟩ := r2
  obtain ⟨_, mk, _⟩ := Whole.Looping.fragments hs.1 fs' h1 h2 (.refl hs.1) (fun f hm => (there f (hp f hm)).kept hs.2.1) (e2 N (Nat.le_refl _))
  refine ⟨h1, h2, max N (h0.bases.length + L + 1), ⟨i1, hs.1, mk, i2.visited, fun f hf x hx => by
    have := u1 (.stored x.1 x.2) ⟨f, hf, hx⟩
    simpa only [Item.Holds, i2.bigger.anns] using this⟩, i2.bigger.exts.trans i1.exts, i2.wf, fun n hn => ?_⟩
  unfold unwrapShapes
  rw [M.bind_of_ok (m := M.modify fun h : St => { h with fragTypes := [], fragAnnotationTypes := [], shapes := [] }) (a := ()) (s' := Whole.cleared h0) rfl]
  have ea := unwrapFragments_at (n := h0.bases.length + L + 1) (m := n) (by omega) fs (Whole.cleared h0) (by rw [r1]; simp)
  rw [r1] at ea
  rw [M.bind_of_ok ea, M.bind_of_ok (m := markFragments n fs') (e2 n (by omega))]

end

end GoRaml.Flat
