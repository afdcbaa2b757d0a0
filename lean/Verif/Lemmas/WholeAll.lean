import Verif.Lemmas.WholeMark

/-!
# Unwrapping all fragments of a model
-/

namespace GoRaml.Whole

open GoRaml GoRaml.Spec GoRaml.Load

variable {K : Par}

/-- What of a library stays: its location, its links and the names of its types. -/
def sig (l : Lib) : String × OMap (String × Option Nat) × List String × List String := (l.location, l.uses, l.types.map (·.1), l.annotationTypes.map (·.1))

/-- Types may be replaced and added; the fragments with the names of their types are the same, and so are the annotations. -/
structure Kept (s s' : St) : Prop where
  longer : Longer s s'
  libs : s'.libs.map sig = s.libs.map sig
  dts : ∀ (i : Nat) (d : DT), s.dts[i]? = some d → ∃ d' : DT, s'.dts[i]? = some d' ∧ d'.location = d.location ∧ d'.uses = d.uses
  fragments : s'.fragments = s.fragments
  exts : s'.domainExts = s.domainExts

theorem longer_refl (s : St) : Longer s s :=
  ⟨Nat.le_refl _, Nat.le_refl _, Nat.le_refl _, Nat.le_refl _, Nat.le_refl _, Nat.le_refl _, Nat.le_refl _, Nat.le_refl _⟩

theorem Kept.refl (s : St) : Kept s s := ⟨longer_refl s, rfl, fun _ d h => ⟨d, h, rfl, rfl⟩, rfl, rfl⟩

theorem Kept.trans {s t u : St} (h : Kept s t) (k : Kept t u) : Kept s u :=
  ⟨longer_trans h.longer k.longer, k.libs.trans h.libs, fun i d hd => by
    obtain ⟨d1, h1, h2, h3⟩ := h.dts i d hd
    obtain ⟨d2, k1, k2, k3⟩ := k.dts i d1 h1
    exact ⟨d2, k1, k2.trans h2, k3.trans h3⟩, k.fragments.trans h.fragments, k.exts.trans h.exts⟩

theorem Bigger.kept {s t : St} (h : Bigger s t) : Kept s t :=
  ⟨h.longer, by rw [h.libs], fun i d hd => ⟨d, by
    obtain ⟨l, e⟩ := h.dts
    rw [← e, List.getElem?_append_left (List.getElem?_eq_some_iff.1 hd).1]; exact hd, rfl, rfl⟩, h.fragments, h.exts⟩

theorem Kept.isBase {s t : St} (h : Kept s t) {a : Addr} (ha : IsBase s a) : IsBase t a := Nat.lt_of_lt_of_le ha h.longer.bases

theorem Kept.lib {s t : St} (h : Kept s t) {i : Nat} {l : Lib} (hl : s.libs[i]? = some l) : ∃ l', t.libs[i]? = some l' ∧ sig l' = sig l := by
  have e : (t.libs.map sig)[i]? = (s.libs.map sig)[i]? := by rw [h.libs]
  rw [List.getElem?_map, List.getElem?_map, hl] at e
  cases ht : t.libs[i]? with
  | none => rw [ht] at e; cases e
  | some l' => rw [ht] at e; exact ⟨l', rfl, by simpa using e⟩

/-- Safe on well-formed models, in the outer loops. -/
abbrev Sound {α : Type} (K : Par) (m : M St α) (s : St) (Q : α → St → Prop) : Prop := Safe K.X (Wf K) Kept m s Q

theorem Fine.sound {α : Type} {m : M St α} {s : St} {Q : α → St → Prop} (h : Fine K m s Q) : Sound K m s Q := ⟨h.1, h.2.1.kept, h.2.2⟩

theorem Sound.bind {α β : Type} {m : M St α} {f : α → M St β} {s : St} {Q : α → St → Prop} {Q' : β → St → Prop} (h1 : Sound K m s Q)
    (h2 : ∀ x s', Wf K s' → Kept s s' → Q x s' → Sound K (f x) s' Q') : Sound K (M.bind m f) s Q' :=
  Safe.bind (I := Wf K) (R := Kept) (fun _ _ _ h k => Kept.trans h k) h1 h2

theorem Sound.ret {α : Type} {x : α} {s : St} {Q : α → St → Prop} (hw : Wf K s) (hq : Q x s) : Sound K (M.ret x) s Q := Safe.ret Kept.refl hw hq

theorem keys_set {α : Type} {m : OMap α} {k : String} {v : α} (h : k ∈ m.map (·.1)) : (OMap.set m k v).map (·.1) = m.map (·.1) := by
  induction m with
  | nil => cases h
  | cons e m ih =>
    obtain ⟨k', v'⟩ := e
    unfold OMap.set
    split
    · rename_i hk; simp [hk]
    · rename_i hk
      simp only [List.map_cons, List.mem_cons] at h
      rcases h with h | h
      · exact absurd h.symm hk
      · simp [ih h]

theorem map_modify_same {α β : Type} {f : α → β} {g : α → α} {l : List α} {i : Nat} (h : ∀ x, l[i]? = some x → f (g x) = f x) : (l.modify i g).map f = l.map f := by
  apply List.ext_getElem?
  intro j
  rw [List.getElem?_map, List.getElem?_map, List.getElem?_modify]
  cases hj : l[j]? with
  | none => rfl
  | some x =>
    simp only [Option.map_eq_map, Option.map_some, Option.some.injEq]
    split
    · rename_i e; subst e; exact h x hj
    · rfl

/-- The names of the types in a section. -/
def names (c : Sect) (l : Lib) : List String := (c.of l).map (·.1)

theorem names_sig {c : Sect} {l l' : Lib} (h : sig l' = sig l) : names c l' = names c l := by
  unfold sig at h
  simp only [Prod.mk.injEq] at h
  cases c
  · exact h.2.2.1
  · exact h.2.2.2

section
variable {s : St}

theorem setType_sound {c : Sect} {i : Nat} {key : String} {us : Addr} (hw : Wf K s) (hu : IsBase s us) (hk : ∀ l, s.libs[i]? = some l → key ∈ names c l) :
    Sound K (setType c i key us) s fun _ s' => s'.bases = s.bases := by
  have e : ∃ f : Lib → Lib, setType c i key us s = (.ok (), { s with libs := s.libs.modify i f }) ∧ (∀ l, s.libs[i]? = some l → sig (f l) = sig l) ∧
      ∀ l, LibIn s l → LibIn s (f l) := by
    cases c with
    | types =>
      refine ⟨fun l => { l with types := OMap.set l.types key us }, rfl, fun l hl => ?_, fun l hl => ⟨fun x hx => ?_, hl.annotationTypes, hl.uses⟩⟩
      · have := keys_set (v := us) (hk l hl); simp only [sig, Prod.mk.injEq, true_and, and_true]; exact this
      · rcases mem_omap_set hx with h | h
        · exact hl.types x h
        · rw [h]; exact hu
    | annotationTypes =>
      refine ⟨fun l => { l with annotationTypes := OMap.set l.annotationTypes key us }, rfl, fun l hl => ?_, fun l hl => ⟨hl.types, fun x hx => ?_, hl.uses⟩⟩
      · have := keys_set (v := us) (hk l hl); simp only [sig, Prod.mk.injEq, true_and, and_true]; exact this
      · rcases mem_omap_set hx with h | h
        · exact hl.annotationTypes x h
        · rw [h]; exact hu
  obtain ⟨f, e, h1, h2⟩ := e
  have g : Longer s { s with libs := s.libs.modify i f } := ⟨Nat.le_refl _, Nat.le_refl _, Nat.le_refl _, Nat.le_refl _, Nat.le_refl _, by simp, Nat.le_refl _, Nat.le_refl _⟩
  unfold Sound Safe Outcome
  rw [e]
  refine ⟨?_, ⟨g, map_modify_same h1, fun _ d h => ⟨d, h, rfl, rfl⟩, rfl, rfl⟩, rfl⟩
  exact
    { base := fun a b h => (hw.base a b h).mono g
      props := hw.props
      patProps := hw.patProps
      slices := hw.slices
      fmaps := hw.fmaps
      lib := fun l hl => by
        rcases mem_modify hl with h | ⟨y, h3, _, rfl⟩
        · exact (hw.lib l h).mono g
        · exact (h2 y (hw.lib y h3)).mono g
      dt := fun l hl => (hw.dt l hl).mono g
      exts := hw.exts
      anns := hw.anns }

/-- The tables of types and the list of shapes do not matter, but for the annotation types. -/
theorem Wf.tables (hw : Wf K s) {ft fa : OMap (OMap Addr)} {sh : List Addr} (hf : ∀ e ∈ fa, ∀ e' ∈ e.2, IsBase s e'.2) :
    Wf K { s with fragTypes := ft, fragAnnotationTypes := fa, shapes := sh } ∧ Kept s { s with fragTypes := ft, fragAnnotationTypes := fa, shapes := sh } := by
  have g : Longer s { s with fragTypes := ft, fragAnnotationTypes := fa, shapes := sh } :=
    ⟨Nat.le_refl _, Nat.le_refl _, Nat.le_refl _, Nat.le_refl _, Nat.le_refl _, Nat.le_refl _, Nat.le_refl _, Nat.le_refl _⟩
  exact ⟨⟨fun a b h => (hw.base a b h).mono g, hw.props, hw.patProps, hw.slices, hw.fmaps, fun l h => (hw.lib l h).mono g, fun l h => (hw.dt l h).mono g, hw.exts, hf⟩,
    g, rfl, fun _ d h => ⟨d, h, rfl, rfl⟩, rfl, rfl⟩

theorem putType_sound {name location : String} {a : Addr} (hw : Wf K s) : Sound K (Heap.putType name location a) s fun _ s' => s'.bases = s.bases :=
  ⟨(hw.tables hw.anns).1, (hw.tables hw.anns).2, rfl⟩

theorem mem_get {α : Type} {m : OMap α} {k : String} {v : α} (h : OMap.get m k = some v) : (k, v) ∈ m := by
  induction m with
  | nil => cases h
  | cons e m ih =>
    obtain ⟨k', v'⟩ := e
    unfold OMap.get at h
    split at h
    · rename_i hk; cases h; rw [hk]; exact List.mem_cons_self
    · exact List.mem_cons_of_mem _ (ih h)

theorem putAnnotationType_sound {name location : String} {a : Addr} (hw : Wf K s) (ha : IsBase s a) :
    Sound K (Heap.putAnnotationType name location a) s fun _ s' => s'.bases = s.bases := by
  suffices hf : ∀ e ∈ putTypeInto s.fragAnnotationTypes name location a, ∀ e' ∈ e.2, IsBase s e'.2 by
    exact ⟨(hw.tables hf).1, (hw.tables hf).2, rfl⟩
  intro e he e' he'
  rcases mem_omap_set he with h | h
  · exact hw.anns e h e' he'
  · rw [h] at he'
    rcases mem_omap_set he' with h | h
    · cases hg : OMap.get s.fragAnnotationTypes location with
      | none => rw [hg] at h; cases h
      | some m => rw [hg] at h; exact hw.anns _ (mem_get hg) e' h
    · rw [h]; exact ha

theorem unwrapType_sound {n : Nat} {c : Sect} {i : Nat} {location : String} {ka : String × Addr} (hw : Wf K s) (ha : IsBase s ka.2)
    (hk : ∀ l, s.libs[i]? = some l → ka.1 ∈ names c l) : Sound K (unwrapType n c i location ka) s fun _ _ => True := by
  refine Sound.bind (unwrap_fine n _ s hw ha).sound fun us s1 hw1 g1 q1 => ?_
  refine Sound.bind (setType_sound hw1 q1 fun l hl => ?_) fun _ s2 hw2 g2 _ => ?_
  · cases hs : s.libs[i]? with
    | none =>
      have : s1.libs[i]? = none := by
        rw [List.getElem?_eq_none_iff] at hs ⊢
        have := congrArg List.length g1.libs
        simp only [List.length_map] at this
        omega
      rw [this] at hl; cases hl
    | some l0 =>
      obtain ⟨l', h1, h2⟩ := g1.lib hs
      rw [hl] at h1
      cases h1
      rw [names_sig h2]
      exact hk l0 hs
  · refine Sound.bind (Fine.getBase hw2 (g2.isBase q1)).sound fun u s3 hw3 g3 _ => ?_
    cases c with
    | types => exact (putType_sound hw3).post fun _ _ _ _ _ => trivial
    | annotationTypes => exact (putAnnotationType_sound hw3 ((g1.trans (g2.trans g3)).isBase ha)).post fun _ _ _ _ _ => trivial

theorem unwrapTypes_sound {n : Nat} {c : Sect} {i : Nat} {l : Lib} (hw : Wf K s) (hl : ∃ l', s.libs[i]? = some l' ∧ sig l' = sig l) (hb : ∀ e ∈ c.of l, IsBase s e.2) :
    Sound K (unwrapTypes n c i l) s fun _ _ => True := by
  refine Safe.tryEach Kept.refl (fun _ _ _ h k => Kept.trans h k) hw fun ka hka s' hw' g => ?_
  refine unwrapType_sound hw' (g.isBase (hb ka hka)) fun l1 h1 => ?_
  obtain ⟨l', h2, h3⟩ := hl
  obtain ⟨l2, h4, h5⟩ := g.lib h2
  rw [h1] at h4
  cases h4
  rw [names_sig (h5.trans h3)]
  exact List.mem_map_of_mem hka

theorem tryBoth_sound {m m' : M St Unit} (h : Sound K m s fun _ _ => True) (h' : ∀ s', Wf K s' → Kept s s' → Sound K m' s' fun _ _ => True) :
    Sound K (M.tryBoth m m') s fun _ _ => True := by
  unfold M.tryBoth M.tryEach
  refine Sound.bind (Safe.attempt h) fun r s1 hw1 g1 _ => ?_
  refine Sound.bind (Safe.attempt (Q := fun _ _ => True) ?_) fun r' s2 hw2 g2 _ => ?_
  · refine Safe.tryEach Kept.refl (fun _ _ _ h k => Kept.trans h k) hw1 fun x hx s' hw' g => ?_
    rw [List.mem_singleton.1 hx]
    exact h' s' hw' (g1.trans g)
  · cases r with
    | ok _ => cases r' <;> first | exact Sound.ret hw2 trivial | exact Safe.err Kept.refl hw2
    | error _ => exact Safe.err Kept.refl hw2

theorem unwrapLibrary_sound {n i : Nat} {l : Lib} (hw : Wf K s) (hl : s.libs[i]? = some l) : Sound K (unwrapLibrary n i l) s fun _ _ => True := by
  have hin := hw.lib l (List.mem_of_getElem? hl)
  refine tryBoth_sound (unwrapTypes_sound hw ⟨l, hl, rfl⟩ hin.annotationTypes) fun s' hw' g => ?_
  exact unwrapTypes_sound hw' (g.lib hl) fun e he => g.isBase (hin.types e he)

theorem modDT_sound {i : Nat} {us : Addr} (hw : Wf K s) (hu : IsBase s us) :
    Sound K (M.modify fun h => { h with dts := h.dts.modify i fun d => { d with shape := some us } }) s fun _ s' => s'.bases = s.bases := by
  have g : Longer s { s with dts := s.dts.modify i fun d => { d with shape := some us } } :=
    ⟨Nat.le_refl _, Nat.le_refl _, Nat.le_refl _, Nat.le_refl _, Nat.le_refl _, Nat.le_refl _, by simp, Nat.le_refl _⟩
  refine ⟨⟨fun a b h => (hw.base a b h).mono g, hw.props, hw.patProps, hw.slices, hw.fmaps, fun l h => (hw.lib l h).mono g, fun d hd => ?_, hw.exts, hw.anns⟩,
    ⟨g, rfl, fun j d hd => ?_, rfl, rfl⟩, rfl⟩
  · rcases mem_modify hd with h | ⟨y, h1, _, rfl⟩
    · exact (hw.dt d h).mono g
    · exact ⟨⟨us, rfl, hu⟩, ((hw.dt y h1).mono g).uses⟩
  · simp only [M.modify, List.getElem?_modify, hd, Option.map_eq_map, Option.map_some, Option.some.injEq, exists_eq_left']
    split <;> exact ⟨rfl, rfl⟩

theorem unwrapDataType_sound {n i : Nat} {d : DT} (hw : Wf K s) (hd : DTIn s d) : Sound K (unwrapDataType n i d) s fun _ _ => True := by
  obtain ⟨a, ha, hb⟩ := hd.shape
  unfold unwrapDataType
  rw [ha]
  refine Sound.bind (unwrap_fine n _ s hw hb).sound fun us s1 hw1 g1 q1 => ?_
  refine Sound.bind (modDT_sound hw1 q1) fun _ s2 hw2 g2 _ => ?_
  refine Sound.bind (Fine.getBase hw2 (g2.isBase q1)).sound fun u s3 hw3 g3 _ => ?_
  exact (putType_sound hw3).post fun _ _ _ _ _ => trivial

/-- The fragment exists. -/
def FragThere (s : St) : FragRef → Prop
  | .library i => i < s.libs.length
  | .dataType i => i < s.dts.length
  | .namedExample _ => True

theorem FragThere.kept {s' : St} (g : Kept s s') {f : FragRef} (h : FragThere s f) : FragThere s' f := by
  cases f with
  | library i => exact Nat.lt_of_lt_of_le (show i < _ from h) g.longer.libs
  | dataType i => exact Nat.lt_of_lt_of_le (show i < _ from h) g.longer.dts
  | namedExample i => trivial

theorem unwrapFragment_sound {n : Nat} {f : FragRef} (hw : Wf K s) (hf : FragThere s f) : Sound K (unwrapFragment n f) s fun _ _ => True := by
  cases f with
  | library i =>
    have hl : s.libs[i]? = some _ := List.getElem?_eq_getElem hf
    exact Safe.congr (by simp only [unwrapFragment, hl]) (unwrapLibrary_sound (n := n) hw hl)
  | dataType i =>
    have hl : s.dts[i]? = some _ := List.getElem?_eq_getElem hf
    exact Safe.congr (by simp only [unwrapFragment, hl]) (unwrapDataType_sound (n := n) (i := i) hw (hw.dt _ (List.getElem_mem hf)))
  | namedExample i => exact Sound.ret (x := ()) hw trivial

theorem unwrapFragments_sound {n : Nat} {fs : List FragRef} (hw : Wf K s) (hf : ∀ f ∈ fs, FragThere s f) : Sound K (unwrapFragments n fs) s fun _ _ => True :=
  Safe.tryEach Kept.refl (fun _ _ _ h k => Kept.trans h k) hw fun f h _ hw' g => unwrapFragment_sound hw' ((hf f h).kept g)

theorem markType_fine [K.Rec] {n : Nat} {a : Addr} (hw : Wf K s) (ha : IsBase s a) : Fine K (M.bind (mark n a) fun _ => M.ret ()) s fun _ _ => True :=
  Fine.bind (mark_fine n a s hw ha) fun _ _ hw' _ _ => Fine.ret hw' trivial

theorem markFragment_fine [K.Rec] {n : Nat} {f : FragRef} (hw : Wf K s) (hf : FragThere s f) : Fine K (markFragment n f) s fun _ _ => True := by
  cases f with
  | library i =>
    have hl : s.libs[i]? = some _ := List.getElem?_eq_getElem hf
    refine Safe.congr (m := M.forEach (fun ka : String × Addr => M.bind (mark n ka.2) fun _ => M.ret ()) (s.libs[i].annotationTypes ++ s.libs[i].types)) (by simp only [markFragment, hl]) ?_
    have hin := hw.lib _ (List.getElem_mem hf)
    refine Safe.forEach (Q := fun _ => True) Bigger.refl (fun _ _ _ h k => Bigger.trans h k) (fun _ _ => trivial) hw fun ka hka s' hw' g => markType_fine hw' (g.isBase ?_)
    rcases List.mem_append.1 hka with h | h
    · exact hin.annotationTypes _ h
    · exact hin.types _ h
  | dataType i =>
    have hl : s.dts[i]? = some _ := List.getElem?_eq_getElem hf
    obtain ⟨a, ha, hb⟩ := (hw.dt _ (List.getElem_mem hf)).shape
    exact Safe.congr (by simp only [markFragment, hl, Option.bind_some, ha]) (markType_fine (n := n) hw hb)
  | namedExample i => exact Fine.ret (x := ()) hw trivial

theorem FragThere.bigger {s' : St} (g : Bigger s s') {f : FragRef} (h : FragThere s f) : FragThere s' f := h.kept g.kept

theorem markFragments_fine [K.Rec] {n : Nat} {fs : List FragRef} (hw : Wf K s) (hf : ∀ f ∈ fs, FragThere s f) : Fine K (markFragments n fs) s fun _ _ => True :=
  Safe.forEach (Q := fun _ => True) Bigger.refl (fun _ _ _ h k => Bigger.trans h k) (fun _ _ => trivial) hw fun f h _ hw' g => markFragment_fine hw' ((hf f h).bigger g)

end

end GoRaml.Whole
