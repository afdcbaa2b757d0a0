import Verif.Lemmas.WholeAll
import Verif.Props.Unwrap

/-!
# Unwrapping a whole model: annotations, and the three steps together
-/

namespace GoRaml.Whole

open GoRaml GoRaml.Spec GoRaml.Load

variable {K : Par}

/-- What of an annotation stays. -/
def esig (d : DomainExt) : String × GoVal × String := (d.name, d.value, d.location)

/-- The type that is stored for the name and the location of an annotation type. -/
def Stored (s : St) (a : Addr) (o : Option Addr) : Prop :=
  ∃ b m, s.base a = some b ∧ OMap.get s.fragAnnotationTypes b.location = some m ∧ o = OMap.get m b.name

/-- What one step of the loop over annotations does. -/
theorem unwrapDomainExtension_run {s : St} {i : Nat} {d : DomainExt} {a : Addr} {b : Base} (hd : s.domainExts[i]? = some d) (ha : d.definedBy = some a)
    (hb : s.base a = some b) : (OMap.get s.fragAnnotationTypes b.location = none ∧ unwrapDomainExtension i s = (.err "location not found", s)) ∨
      ∃ o, Stored s a o ∧ unwrapDomainExtension i s = (.ok (), { s with domainExts := s.domainExts.modify i fun d => { d with definedBy := o } }) := by
  unfold unwrapDomainExtension
  rw [hd]
  simp only [Option.bind_some, ha, hb]
  unfold getTypeFrom
  cases hm : OMap.get s.fragAnnotationTypes b.location with
  | none => exact .inl ⟨rfl, rfl⟩
  | some m => exact .inr ⟨_, ⟨b, m, hb, hm, rfl⟩, rfl⟩

/-- The loop over the annotations at the indices `l`. -/
structure ExtRun (s : St) (l : List Nat) (r : Out Unit × St) : Prop where
  noPanic : ∀ e, r.1 ≠ .panic e
  noDiv : r.1 ≠ .diverge
  fails : ∀ e, r.1 = .err e → ∃ i ∈ l, ∃ d a b, s.domainExts[i]? = some d ∧ d.definedBy = some a ∧ s.base a = some b ∧ OMap.get s.fragAnnotationTypes b.location = none
  same : ∃ e, r.2 = { s with domainExts := e } ∧ e.map esig = s.domainExts.map esig ∧
    (∀ (i : Nat), i ∉ l → e[i]? = s.domainExts[i]?) ∧
    (∀ (i : Nat) (d d' : DomainExt), s.domainExts[i]? = some d → e[i]? = some d' → d'.definedBy = d.definedBy ∨ ∃ a, d.definedBy = some a ∧ Stored s a d'.definedBy) ∧
    (r.1 = .ok () → ∀ i ∈ l, ∀ d d', s.domainExts[i]? = some d → e[i]? = some d' → ∃ a, d.definedBy = some a ∧ Stored s a d'.definedBy)

theorem extLoop : ∀ (l : List Nat), l.Nodup → ∀ s : St, (∀ i ∈ l, ∃ d a b, s.domainExts[i]? = some d ∧ d.definedBy = some a ∧ s.base a = some b) →
    ExtRun s l (M.tryEach unwrapDomainExtension l s)
  | [], _, s, _ => ⟨fun _ h => (by cases h), fun h => (by cases h), fun _ h => (by cases h), s.domainExts, rfl, rfl, fun _ _ => rfl,
      fun i d d' h1 h2 => .inl (by rw [h1] at h2; cases h2; rfl), fun _ _ h => (by cases h)⟩
  | i :: l, hn, s, hs => by
    obtain ⟨d, a, b, hd, ha, hb⟩ := hs i (by simp)
    obtain ⟨hil, hn'⟩ := List.nodup_cons.1 hn
    unfold M.tryEach
    rcases unwrapDomainExtension_run hd ha hb with ⟨hno, e⟩ | ⟨o, hst, e⟩
    · have ih := extLoop l hn' s fun j hj => hs j (by simp [hj])
      obtain ⟨p1, p2, p0, e', p3, p4, p5, p6, p7⟩ := ih
      cases hr : M.tryEach unwrapDomainExtension l s with
      | mk r s' =>
        rw [hr] at p0 p1 p2 p3 p7
        simp only [M.bind, M.attempt, e, hr]
        cases r with
        | ok _ =>
          exact ⟨fun _ h => (by cases h), fun h => (by cases h), fun _ _ => ⟨i, by simp, d, a, b, hd, ha, hb, hno⟩, e', p3, p4, fun j hj => p5 j fun h => hj (by simp [h]), p6, fun h => by cases h⟩
        | err _ =>
          exact ⟨fun _ h => (by cases h), fun h => (by cases h), fun _ _ => ⟨i, by simp, d, a, b, hd, ha, hb, hno⟩, e', p3, p4, fun j hj => p5 j fun h => hj (by simp [h]), p6, fun h => by cases h⟩
        | panic x => exact absurd rfl (p1 x)
        | diverge => exact absurd rfl p2
    · have hm : (s.domainExts.modify i fun d => { d with definedBy := o })[i]? = some { d with definedBy := o } := by
        simp [hd]
      have hm' : ∀ j, j ≠ i → (s.domainExts.modify i fun d => { d with definedBy := o })[j]? = s.domainExts[j]? := fun j hj => by
        rw [List.getElem?_modify]
        cases s.domainExts[j]? with
        | none => rfl
        | some x => simp [Ne.symm hj]
      have ih := extLoop l hn' { s with domainExts := s.domainExts.modify i fun d => { d with definedBy := o } } fun j hj => by
        obtain ⟨d1, a1, b1, q1, q2, q3⟩ := hs j (by simp [hj])
        exact ⟨d1, a1, b1, by simp only; rw [hm' j (fun e => hil (e ▸ hj))]; exact q1, q2, q3⟩
      obtain ⟨p1, p2, p0, e', p3, p4, p5, p6, p7⟩ := ih
      have hsig : (s.domainExts.modify i fun d => { d with definedBy := o }).map esig = s.domainExts.map esig := map_modify_same fun x _ => rfl
      have hat : ∀ d', e'[i]? = some d' → d'.definedBy = o := fun d' hd' => by
        have h := p5 i hil
        simp only at h
        rw [hd', hm] at h
        simp only [Option.some.injEq] at h
        rw [h]
      have hold : ∀ (j : Nat) (d1 d' : DomainExt), s.domainExts[j]? = some d1 → e'[j]? = some d' →
          d'.definedBy = d1.definedBy ∨ ∃ a, d1.definedBy = some a ∧ Stored s a d'.definedBy := fun j d1 d' h1 h2 => by
        by_cases hj : j = i
        · subst hj
          rw [hd] at h1
          cases h1
          exact .inr ⟨a, ha, hat d' h2 ▸ hst⟩
        · exact p6 j d1 d' (by simp only; rw [hm' j hj]; exact h1) h2
      cases hr : M.tryEach unwrapDomainExtension l { s with domainExts := s.domainExts.modify i fun d => { d with definedBy := o } } with
      | mk r s' =>
        rw [hr] at p0 p1 p2 p3 p7
        simp only at p3 p4
        simp only [M.bind, M.attempt, e, hr]
        cases r with
        | ok _ =>
          refine ⟨fun _ h => (by cases h), fun h => (by cases h), fun _ h => (by cases h), e', p3, p4.trans hsig, fun j hj => ?_, hold, fun _ j hj d1 d' h1 h2 => ?_⟩
          · simp only [List.mem_cons, not_or] at hj
            rw [p5 j hj.2]
            exact hm' j hj.1
          · by_cases hji : j = i
            · subst hji
              rw [hd] at h1
              cases h1
              exact ⟨a, ha, hat d' h2 ▸ hst⟩
            · rcases List.mem_cons.1 hj with h | h
              · exact absurd h hji
              · exact p7 rfl j h d1 d' (by simp only; rw [hm' j hji]; exact h1) h2
        | err _ =>
          refine ⟨fun _ h => (by cases h), fun h => (by cases h), fun _ _ => ?_, e', p3, p4.trans hsig, fun j hj => ?_, hold, fun h => (by cases h)⟩
          · obtain ⟨j, hj, d1, a1, b1, q1, q2, q3, q4⟩ := p0 _ rfl
            refine ⟨j, by simp [hj], d1, a1, b1, ?_, q2, q3, q4⟩
            simp only at q1
            rw [hm' j (fun e => hil (e ▸ hj))] at q1
            exact q1
          simp only [List.mem_cons, not_or] at hj
          rw [p5 j hj.2]
          exact hm' j hj.1
        | panic x => exact absurd rfl (p1 x)
        | diverge => exact absurd rfl p2

/-- The loop over all annotations. -/
theorem unwrapDomainExtensions_run {s : St} (hs : ∀ d ∈ s.domainExts, ∃ a b, d.definedBy = some a ∧ s.base a = some b) :
    ExtRun s (List.range s.domainExts.length) (unwrapDomainExtensions s) := by
  refine extLoop _ List.nodup_range s fun i hi => ?_
  have hi := List.mem_range.1 hi
  obtain ⟨a, b, h1, h2⟩ := hs _ (List.getElem_mem hi)
  exact ⟨_, a, b, List.getElem?_eq_getElem hi, h1, h2⟩

theorem Stored.isBase {s : St} (hw : Wf K s) {a : Addr} {o : Option Addr} (h : Stored s a o) : IfSome (IsBase s) o := by
  obtain ⟨b, m, _, h1, rfl⟩ := h
  intro x hx
  exact hw.anns _ (mem_get h1) _ (mem_get hx)

theorem Wf.withExts {s : St} (hw : Wf K s) {e : List DomainExt} (he : ∀ d ∈ e, IfSome (IsBase s) d.definedBy) :
    Wf K { s with domainExts := e } := by
  have g : Longer s { s with domainExts := e } :=
    ⟨Nat.le_refl _, Nat.le_refl _, Nat.le_refl _, Nat.le_refl _, Nat.le_refl _, Nat.le_refl _, Nat.le_refl _, Nat.le_refl _⟩
  exact ⟨fun a b h => (hw.base a b h).mono g, hw.props, hw.patProps, hw.slices, hw.fmaps, fun l h => (hw.lib l h).mono g, fun l h => (hw.dt l h).mono g, he, hw.anns⟩

theorem ExtRun.wf {s : St} {l : List Nat} {r : Out Unit × St} (h : ExtRun s l r) (hw : Wf K s) : Wf K r.2 := by
  obtain ⟨_, _, _, e, h1, h2, h3, h4, h5⟩ := h
  rw [h1]
  refine hw.withExts fun d' hd' => ?_
  obtain ⟨i, hi⟩ := List.mem_iff_getElem?.1 hd'
  have hlen := congrArg List.length h2
  simp only [List.length_map] at hlen
  have hi' : i < s.domainExts.length := hlen ▸ (List.getElem?_eq_some_iff.1 hi).1
  rcases h4 i _ d' (List.getElem?_eq_getElem hi') hi with h | ⟨a, _, h⟩
  · rw [h]; exact hw.exts _ (List.getElem_mem hi')
  · exact h.isBase hw

/-- After unwrapping: the fragments and the names of their types are as before, and so are the annotations except for the types they are linked to. -/
structure KeptNames (s s' : St) : Prop where
  longer : Longer s s'
  libs : s'.libs.map sig = s.libs.map sig
  dts : ∀ (i : Nat) (d : DT), s.dts[i]? = some d → ∃ d' : DT, s'.dts[i]? = some d' ∧ d'.location = d.location ∧ d'.uses = d.uses
  fragments : s'.fragments = s.fragments
  exts : s'.domainExts.map esig = s.domainExts.map esig

theorem Kept.names {s s' : St} (h : Kept s s') : KeptNames s s' := ⟨h.longer, h.libs, h.dts, h.fragments, by rw [h.exts]⟩

/-- Unwrapping a well-formed model keeps it well-formed and panics only as allowed. -/
theorem unwrapShapes_safe [K.Rec] {s : St} {n : Nat} {fs fs' : List FragRef} (hw : Wf K s) (hf : ∀ f ∈ fs, FragThere s f) (hf' : ∀ f ∈ fs', FragThere s f)
    (hd : ∀ d ∈ s.domainExts, ∃ a, d.definedBy = some a) : Safe K.X (Wf K) KeptNames (unwrapShapes n fs fs') s fun _ _ => True := by
  have h0 := hw.tables (ft := []) (fa := []) (sh := []) fun _ h => by cases h
  have h1 : Sound K (M.bind (unwrapFragments n fs) fun _ => markFragments n fs') { s with fragTypes := [], fragAnnotationTypes := [], shapes := [] }
      fun _ _ => True := by
    refine Sound.bind (unwrapFragments_sound h0.1 fun f h => (hf f h).kept h0.2) fun _ s1 hw1 g1 _ => ?_
    exact (markFragments_fine hw1 fun f h => (hf' f h).kept (h0.2.trans g1)).sound
  have e : unwrapShapes n fs fs' s = M.bind (M.bind (unwrapFragments n fs) fun _ => markFragments n fs') (fun _ => unwrapDomainExtensions)
      { s with fragTypes := [], fragAnnotationTypes := [], shapes := [] } := by
    unfold unwrapShapes
    simp only [M.bind, M.modify]
    cases unwrapFragments n fs { s with fragTypes := [], fragAnnotationTypes := [], shapes := [] } with
    | mk r s' => cases r <;> rfl
  obtain ⟨w1, k1, o1⟩ := h1
  have k01 := h0.2.trans k1
  unfold Safe Outcome
  rw [e]
  generalize M.bind (unwrapFragments n fs) (fun _ => markFragments n fs') = m at w1 k1 o1 k01
  simp only [M.bind]
  cases hm : m { s with fragTypes := [], fragAnnotationTypes := [], shapes := [] } with
  | mk r s1 =>
    rw [hm] at w1 k1 o1 k01
    cases r with
    | ok _ =>
      have hrun := unwrapDomainExtensions_run (s := s1) fun d hd' => by
        rw [k01.exts] at hd'
        obtain ⟨a, ha⟩ := hd d hd'
        obtain ⟨b, hb⟩ := isBase_base (w1.exts d (by simp only; rw [k01.exts]; exact hd') a ha)
        exact ⟨a, b, ha, hb⟩
      have w2 := hrun.wf w1
      obtain ⟨p1, p2, _, e', p3, p4, _⟩ := hrun
      refine ⟨w2, ?_, ?_⟩
      · simp only
        rw [p3]
        exact ⟨⟨k01.longer.bases, k01.longer.pmaps, k01.longer.ppmaps, k01.longer.fmaps, k01.longer.slices, k01.longer.libs, k01.longer.dts, k01.longer.nes⟩,
          k01.libs, k01.dts, k01.fragments, p4.trans (by rw [k01.exts])⟩
      · split
        · trivial
        · rename_i x hx; exact absurd hx (p1 x)
        · trivial
    | err _ => exact ⟨w1, k01.names, trivial⟩
    | panic x => exact ⟨w1, k01.names, o1⟩
    | diverge => exact ⟨w1, k01.names, trivial⟩

end GoRaml.Whole
