import Verif.Lemmas.LoadVisit

/-!
# Loading: the entry point, the loop over unresolved types, annotations
-/

namespace GoRaml.Load

open GoRaml GoRaml.Spec

/-- Nothing is under construction. -/
abbrev noPerm : Perm := {}

theorem W.empty (E : Env) : W E noPerm {} where
  base := fun a b h => by simp [St.base] at h
  settled := fun a b h => by simp [St.base] at h
  idLe := fun a b h => by simp [St.base] at h
  idInj := fun a b x y h => by simp [St.base] at h
  props := fun m h => by simp at h
  patProps := fun m h => by simp at h
  slices := fun m h => by simp at h
  lib := fun i l h => by simp at h
  libLinked := fun i l h => by simp at h
  dt := fun i l h => by simp at h
  dtLinked := fun i l h => by simp at h
  frags := fun e h => by simp at h
  unresolved := fun e h => by simp at h

section
variable {E : Env} {K : Ctl} {P π : Perm} {s : St}

theorem noDiv_readHead {text : String} : readHead text ≠ .diverge := by
  unfold readHead; split <;> simp

theorem noDiv_kind {t : String} : identifyFragment t ≠ .diverge := by
  unfold identifyFragment; split
  · simp
  split
  · simp
  split <;> simp

theorem decodeNamedExample_run {text path : String} (hT : π.f path) (hw : W E P s) (hx : K.X s) :
    Run E K False P π (decodeNamedExample E text path) s (fun i s' => i < s'.nes.length) := by
  unfold decodeNamedExample
  refine Run.bind (Q := fun _ s' => s'.bases = s.bases) (decodeFragment_run hw hx fun d _ => namedExamples_run _ hw hx) fun m s2 hw2 hx2 _ e2 => ?_
  refine Run.bind (Run.newNE hw2 hx2) fun i s3 hw3 hx3 _ ⟨hi, e3⟩ => ?_
  refine Run.bind (Run.putFragment hw3 hx3 hT (f := .namedExample i) hi) fun _ s4 hw4 hx4 g4 e4 => ?_
  exact Run.ret hw4 hx4 (Nat.lt_of_lt_of_le hi g4.nesLen)

/-- The entry point, given how the two kinds of fragments with types are decoded. -/
theorem decodeEntry_run {n : Nat} {text path : String} (hw : W E P s) (hx : K.X s)
    (hl : Run E K False P (only allPaths) (decodeLibrary E (calls E n) text path) s fun _ _ => True)
    (hd : Run E K False P (only allPaths) (decodeDataType E (calls E n) text path) s fun _ _ => True) :
    Run E K False P (only allPaths) (decodeEntry E n text path) s fun _ _ => True := by
  unfold decodeEntry
  refine Run.bind (Q := fun _ s' => s' = s) (Run.lift hw hx noDiv_readHead fun _ _ => rfl) fun head s1 hw1 hx1 _ e => ?_
  subst e
  refine Run.bind (Q := fun _ s' => s' = s1) (Run.lift hw1 hx1 noDiv_kind fun _ _ => rfl) fun kind s2 hw2 hx2 _ e => ?_
  subst e
  cases kind with
  | library => exact Run.bind hl fun i s' hw' hx' _ _ => Run.ret hw' hx' trivial
  | dataType => exact Run.bind hd fun i s' hw' hx' _ _ => Run.ret hw' hx' trivial
  | namedExample => exact Run.bind (decodeNamedExample_run trivial hw2 hx2) fun i s' hw' hx' _ _ => Run.ret hw' hx' trivial

/-- Decoding a file and everything it refers to. -/
theorem decodeEntry_keeps (hdiv : K.div) (hR : Regs E K) (n : Nat) {text path : String} (hfile : E.file path = some text) (hx : K.X {}) :
    Run E K False noPerm (only allPaths) (decodeEntry E n text path) {} fun _ _ => True := by
  have hg : getFragment ({} : St) path = none := by simp [getFragment, OMap.get]
  have hS := specs hdiv hR n
  exact decodeEntry_run (W.empty E) hx
    ((decodeLibrary_spec hS hR (fun _ _ => trivial) hfile hg (W.empty E) hx).post fun _ _ _ _ _ => trivial)
    ((decodeDataType_spec hS hR (fun _ _ => trivial) hfile hg (W.empty E) hx).post fun _ _ _ _ _ => trivial)

/-! ## The loop over unresolved types -/

/-- The list of unresolved types put aside. -/
def forget (s : St) : St := { s with unresolved := [] }

theorem G.forget {r : Prop} {s' : St} (g : G r π s s') : G r π (forget s) (forget s') :=
  { bases := g.bases, pmaps := g.pmaps, ppmaps := g.ppmaps, fmaps := g.fmaps, slices := g.slices, libsLen := g.libsLen, dtsLen := g.dtsLen, nesLen := g.nesLen, ids := g.ids,
    base := g.base, lib := g.lib, libLoc := g.libLoc, dt := g.dt, dtLoc := g.dtLoc, frag := g.frag, fresh := g.fresh, unresolved := List.prefix_rfl, loc := g.loc }

/-- The first unresolved type is taken off the list, once it is resolved. -/
theorem W.pop {a : Addr} {l : List Addr} (h : W E noPerm s) (hu : s.unresolved = a :: l) (hc : Concrete s a) : W E noPerm { s with unresolved := s.unresolved.tail } :=
  { h with
    base := fun x b hb => by
      have := h.base x b hb
      exact ⟨this.shape, this.facets, this.facetDefs, this.alias, this.inherits, this.link⟩
    settled := fun x b hb hp => by
      rcases h.settled x b hb hp with ⟨f, h1, h2⟩ | h1
      · rw [hu] at h2
        rcases List.mem_cons.1 h2 with rfl | h2
        · obtain ⟨b', hb', ht⟩ := hc
          have hb : s.base x = some b := hb
          rw [hb] at hb'; cases hb'
          exact .inr ht
        · refine .inl ⟨f, h1, ?_⟩
          show x ∈ s.unresolved.tail
          rw [hu]; exact h2
      · exact .inr h1
    idLe := h.idLe
    idInj := h.idInj
    props := h.props
    patProps := h.patProps
    slices := h.slices
    lib := fun i l hl => let k := h.lib i l hl; ⟨k.types, k.annotationTypes, k.uses⟩
    libLinked := h.libLinked
    dt := fun i l hl => let k := h.dt i l hl; ⟨k.shape, k.uses⟩
    dtLinked := h.dtLinked
    frags := h.frags
    unresolved := fun x hx => h.unresolved x (List.mem_of_mem_tail hx) }

theorem resolveLoop_bad (E : Env) (n : Nat) : ∀ (m : Nat) (s s' : St), resolveLoop E n m false s ≠ (.ok (), s')
  | m, s, s', h => by
    unfold resolveLoop at h
    cases hu : s.unresolved with
    | nil => rw [hu] at h; simp at h
    | cons a l =>
      rw [hu] at h
      cases m with
      | zero => simp at h
      | succ m =>
        simp only [Bool.false_and] at h
        obtain ⟨r, s1, _, h2⟩ := M.bind_ok.1 h
        obtain ⟨_, s2, _, h3⟩ := M.bind_ok.1 h2
        exact resolveLoop_bad E n m s2 s' h3

theorem Keep.pop {lo z : Addr} (u : List Addr) : Keep lo z s { s with unresolved := u } := ⟨fun _ _ _ => rfl, List.prefix_rfl, fun _ _ _ h => h⟩

theorem Keep.exts {lo z : Addr} (u : List DomainExt) : Keep lo z s { s with domainExts := u } := ⟨fun _ _ _ => rfl, List.prefix_rfl, fun _ _ _ h => h⟩

theorem Keep.forgotten {lo z : Addr} {s s' : St} (g : G True (only allPaths) (forget s) (forget s')) : Keep lo z s s' :=
  let k : Keep lo z (forget s) (forget s') := Keep.of _ g
  ⟨k.base, k.slices, k.refs⟩

/-- If all types could be resolved, none is left. -/
theorem resolveLoop_ok (hdiv : K.div) (hR : Regs E K) (hK : ∀ s : St, K.X s → K.X { s with unresolved := s.unresolved.tail }) (n : Nat) :
    ∀ (m : Nat) (good : Bool) (s s' : St), W E noPerm s → K.X s → resolveLoop E n m good s = (.ok (), s') →
      W E noPerm s' ∧ K.X s' ∧ s'.unresolved = [] ∧ G True (only allPaths) (forget s) (forget s') ∧ Res noBase s s'
  | m, good, s, s', hw, hx, h => by
    unfold resolveLoop at h
    cases hu : s.unresolved with
    | nil =>
      rw [hu] at h
      simp only at h
      split at h
      · cases h; exact ⟨hw, hx, hu, G.refl _ _ _, Res.refl _ _⟩
      · cases h
    | cons a l =>
      rw [hu] at h
      cases m with
      | zero => simp at h
      | succ m =>
        simp only at h
        obtain ⟨r, s1, h1, h2⟩ := M.bind_ok.1 h
        obtain ⟨_, s2, h3, h4⟩ := M.bind_ok.1 h2
        cases h3
        have hrun := resolveShape_run hdiv hR n noPerm s a hw hx (fun _ hp => hp.elim) (hw.unresolved a (by rw [hu]; simp))
        unfold Run at hrun
        unfold M.attempt at h1
        cases hm : resolveShape E n a s with
        | mk o t =>
          rw [hm] at h1 hrun
          cases o with
          | ok x =>
            simp only [Prod.mk.injEq, Out.ok.injEq] at h1
            obtain ⟨rfl, rfl⟩ := h1
            obtain ⟨hw1, hx1, g1, hc1, r1⟩ := hrun
            obtain ⟨rest, hrest⟩ := g1.unresolved
            have hu1 : t.unresolved = a :: (l ++ rest) := by rw [← hrest, hu]; rfl
            obtain ⟨k1, k2, k3, k4, k5⟩ := resolveLoop_ok hdiv hR hK n m _ _ s' (hw1.pop hu1 hc1) (hK _ hx1) h4
            have r2 : Res noBase s { t with unresolved := t.unresolved.tail } := r1.trans (Res.same fun _ _ _ => rfl) g1.bases fun _ _ => Keep.pop _
            exact ⟨k1, k2, k3, g1.forget.trans k4, r2.trans k5 g1.bases fun _ _ => Keep.forgotten k4⟩
          | err e =>
            simp only [Prod.mk.injEq, Out.ok.injEq] at h1
            obtain ⟨rfl, rfl⟩ := h1
            simp only [Bool.and_false] at h4
            exact absurd h4 (resolveLoop_bad E n m _ _)
          | panic e => simp at h1
          | diverge => simp at h1

/-! ## Annotations -/

/-- The annotation at index `i` is linked to the annotation type it names, if there is one. -/
def ExtLinked (s : St) (i : Nat) : Prop := ∀ de, s.domainExts[i]? = some de → ∃ ref, de.definedBy = some ref ∧ getReferenced s Lib.annotationTypes de.name de.location = .ok ref

theorem resolveExtLoop_ok : ∀ (l : List Nat) (good : Bool) (s s' : St), resolveExtLoop l good s = (.ok (), s') →
    good = true ∧ (∃ exts, s' = { s with domainExts := exts } ∧ exts.length = s.domainExts.length) ∧ (∀ i, ExtLinked s i ∨ i ∈ l → ExtLinked s' i)
  | [], good, s, s', h => by
    unfold resolveExtLoop at h
    split at h
    · rename_i hg
      cases h
      exact ⟨hg, ⟨s.domainExts, rfl, rfl⟩, fun i hi => hi.elim id fun h => by cases h⟩
    · cases h
  | i :: l, good, s, s', h => by
    unfold resolveExtLoop at h
    obtain ⟨r, s1, h1, h2⟩ := M.bind_ok.1 h
    obtain ⟨hg, ⟨exts, e1, e2⟩, hlink⟩ := resolveExtLoop_ok l _ s1 s' h2
    unfold M.attempt at h1
    cases hm : resolveDomainExtension i s with
    | mk o t =>
      rw [hm] at h1
      cases o with
      | ok x =>
        simp only [Prod.mk.injEq, Out.ok.injEq] at h1
        obtain ⟨rfl, rfl⟩ := h1
        have hgood : good = true := by simpa using hg
        unfold resolveDomainExtension at hm
        cases hde : s.domainExts[i]? with
        | none => rw [hde] at hm; simp at hm
        | some de =>
          rw [hde] at hm
          simp only at hm
          obtain ⟨ref, s2, h3, h4⟩ := M.bind_ok.1 hm
          have h3 : getReferenced s Lib.annotationTypes de.name de.location = .ok ref ∧ s = s2 := by
            simpa [M.lift] using h3
          obtain ⟨href, rfl⟩ := h3
          have ht : t = { s with domainExts := s.domainExts.modify i fun de => { de with definedBy := some ref } } := by
            have := h4; simp only [M.modify, Prod.mk.injEq] at this; exact this.2.symm
          subst ht
          refine ⟨hgood, ⟨exts, e1, by rw [e2]; simp⟩, fun j hj => hlink j ?_⟩
          have hnew : ExtLinked { s with domainExts := s.domainExts.modify i fun de => { de with definedBy := some ref } } i := by
            intro de' hde'
            simp only [List.getElem?_modify, hde] at hde'
            simp only [if_true, Option.map_eq_map, Option.map_some, Option.some.injEq] at hde'
            subst hde'
            exact ⟨ref, rfl, href⟩
          by_cases hji : j = i
          · subst hji; exact .inl hnew
          · rcases hj with hj | hj
            · refine .inl fun de' hde' => ?_
              have hij : ¬ i = j := fun e => hji e.symm
              have hde' : s.domainExts[j]? = some de' := by simpa [List.getElem?_modify, hij] using hde'
              exact hj de' hde'
            · rcases List.mem_cons.1 hj with rfl | hj
              · exact absurd rfl hji
              · exact .inr hj
      | err e =>
        simp only [Prod.mk.injEq, Out.ok.injEq] at h1
        obtain ⟨rfl, rfl⟩ := h1
        simp at hg
      | panic e => simp at h1
      | diverge => simp at h1

theorem resolveDomainExtensions_ok {s' : St} (h : resolveDomainExtensions s = (.ok (), s')) :
    (∃ exts, s' = { s with domainExts := exts }) ∧ ∀ i, ExtLinked s' i := by
  unfold resolveDomainExtensions at h
  obtain ⟨_, ⟨exts, e1, e2⟩, hl⟩ := resolveExtLoop_ok _ _ _ _ h
  refine ⟨⟨exts, e1⟩, fun i => ?_⟩
  by_cases hi : i < s.domainExts.length
  · exact hl i (.inr (List.mem_range.2 hi))
  · intro de hde
    rw [e1] at hde
    have : i < exts.length := (List.getElem?_eq_some_iff.1 hde).1
    omega

/-- The annotations play no role in the invariant. -/
theorem W.exts {exts : List DomainExt} (h : W E P s) : W E P { s with domainExts := exts } :=
  { base := fun x b hb => let k := h.base x b hb; ⟨k.shape, k.facets, k.facetDefs, k.alias, k.inherits, k.link⟩
    settled := h.settled
    idLe := h.idLe
    idInj := h.idInj
    props := h.props
    patProps := h.patProps
    slices := h.slices
    lib := fun i l hl => let k := h.lib i l hl; ⟨k.types, k.annotationTypes, k.uses⟩
    libLinked := h.libLinked
    dt := fun i l hl => let k := h.dt i l hl; ⟨k.shape, k.uses⟩
    dtLinked := h.dtLinked
    frags := h.frags
    unresolved := h.unresolved }

/-! ## A whole parse -/

/-- What a successful parse ensures. -/
structure Loaded (E : Env) (s : St) : Prop where
  w : W E noPerm s
  done : s.unresolved = []
  exts : ∀ i, ExtLinked s i

theorem parseFromPath_ok (hdiv : K.div) (hR : Regs E K) (hK : ∀ s : St, K.X s → K.X { s with unresolved := s.unresolved.tail })
    (hK' : ∀ (s : St) (e : List DomainExt), K.X s → K.X { s with domainExts := e }) (h0 : K.X {}) {n m : Nat} {path : String} {f : FragRef} {s' : St}
    (h : parseFromPath E n m path {} = (.ok f, s')) : Loaded E s' ∧ K.X s' := by
  unfold parseFromPath at h
  cases hfile : E.file path with
  | none => rw [hfile] at h; cases h
  | some text =>
    rw [hfile] at h
    simp only [parseFragment] at h
    obtain ⟨f', s1, h1, h2⟩ := M.bind_ok.1 h
    obtain ⟨_, s2, h3, h4⟩ := M.bind_ok.1 h2
    obtain ⟨_, s3, h5, h6⟩ := M.bind_ok.1 h4
    cases h6
    have hrun := decodeEntry_keeps hdiv hR n hfile h0
    unfold Run at hrun
    rw [h1] at hrun
    obtain ⟨hw1, hx1, _, _⟩ := hrun
    obtain ⟨hw2, hx2, hu2, _⟩ := resolveLoop_ok hdiv hR hK n m true s1 s2 hw1 hx1 h3
    obtain ⟨⟨exts, rfl⟩, hl⟩ := resolveDomainExtensions_ok h5
    exact ⟨⟨hw2.exts, hu2, hl⟩, hK' _ _ hx2⟩

theorem Loaded.typed {E : Env} {s : St} (h : Loaded E s) {a : Addr} {b : Base} (hb : s.base a = some b) : Typed b := by
  rcases h.w.settled a b hb id with ⟨_, _, hm⟩ | ht
  · rw [h.done] at hm; cases hm
  · exact ht

theorem Loaded.wellFormed {E : Env} {s : St} (h : Loaded E s) : WellFormed s := by
  intro a b hb
  have k := h.w.base a b hb
  obtain ⟨sh, hs, _⟩ := h.typed hb
  have hP : ∀ i, i < s.pmaps.length → PropsOK s i := fun i hi => ⟨_, List.getElem?_eq_getElem hi, h.w.props _ (List.getElem_mem hi)⟩
  have hPP : ∀ i, i < s.ppmaps.length → PatPropsOK s i := fun i hi => ⟨_, List.getElem?_eq_getElem hi, h.w.patProps _ (List.getElem_mem hi)⟩
  have hS : ∀ i, i < s.slices.length → SliceOK s i := fun i hi => ⟨_, List.getElem?_eq_getElem hi, h.w.slices _ (List.getElem_mem hi)⟩
  refine ⟨⟨sh, hs, ?_⟩, fun i hi => ?_, fun i hi => hP i (k.facetDefs i hi), k.alias, fun i hi => hS i (k.inherits i hi), fun i hi => ?_⟩
  · have hk := k.shape sh hs
    cases sh with
    | array f => exact hk
    | object f => exact ⟨fun i hi => hP i (hk.1 i hi), fun i hi => hPP i (hk.2 i hi)⟩
    | union l e => exact fun i hi => hS i (hk i hi)
    | recursive x => exact hk
    | _ => trivial
  · obtain ⟨j, h1, h2⟩ := k.facets
    rw [hi] at h1; cases h1
    exact ⟨_, List.getElem?_eq_getElem h2⟩
  · have hlt := k.link i hi
    obtain ⟨a', h1, h2⟩ := (h.w.dt i _ (List.getElem?_eq_getElem hlt)).shape
    exact ⟨_, a', List.getElem?_eq_getElem hlt, h1, h2⟩

end

/-! ## Decoding ends -/

theorem decodeEntry_ends {E : Env} (hf : FinitelyManyFiles E) (h : NoIncludeCycle E) (text path : String) :
    ∃ N, ∀ n, N ≤ n → (decodeEntry E n text path {}).1 ≠ .diverge := by
  have hwf := includes_wf hf h
  obtain ⟨files, hfiles⟩ := hf
  let K := leftCtl files (files.length + 1)
  have h0 : K.X {} := Nat.lt_succ_of_le (List.length_filter_le ..)
  have hall := ev_calls hfiles hwf (files.length + 1)
  have hsub : ∀ v : YNode, Ev fun n => Sub E K allPaths (calls E n) path v := fun v =>
    ev_sub path v fun t _ _ => hall.mono fun n h => (h _).2
  have hreg : ∀ (s s1 : St) (l : Lib), K.X s1 → K.X (regLib s1 path l) := fun s s1 l hx => by
    have g : G False (only allPaths) s1 (regLib s1 path l) := G.regLib trivial
    exact Nat.lt_of_le_of_lt (missing_le fun p f hp => ⟨f, g.frag p f hp⟩) hx
  have hreg' : ∀ (s s1 : St) (l : DT), K.X s1 → K.X (regDT s1 path l) := fun s s1 l hx => by
    have g : G False (only allPaths) s1 (regDT s1 path l) := G.regDT trivial
    exact Nat.lt_of_le_of_lt (missing_le fun p f hp => ⟨f, g.frag p f hp⟩) hx
  have hdoc : Ev fun n => ∀ d, E.yamlParse text = some d → ∀ u ∈ (docRoot d).content, Sub E K allPaths (calls E n) path u := by
    cases hy : E.yamlParse text with
    | none => exact Ev.of fun _ _ h => by cases h
    | some d => exact (Ev.all (docRoot d).content fun u _ => hsub u).mono fun n h d' hd' => by cases hd'; exact h
  have hfs : Ev fun n => ∀ d, E.yamlParse text = some d → ∀ fs, (∀ u ∈ fs, u ∈ (docRoot d).content) → ShapeSpec E K allPaths (calls E n) (.mk .mapping "" "" fs) path :=
    hdoc.succ fun n h d hd fs hfs P s name hw hx =>
      makeNewShapeYAML_run ⟨fun u hu => h d hd u (hfs u hu), fun ht => absurd ht (by simp [YNode.tag])⟩ hw hx
  have hj : Ev fun n => ShapeSpec E K allPaths (calls E n) (.mk .mapping "" "" [YNode.str "type", YNode.str text]) path :=
    ev_shape fun t ht htag => (not_within_json ht htag).elim
  obtain ⟨N, hN⟩ := ((hall.and hdoc).and (hfs.and hj))
  refine ⟨N, fun n hn hd => ?_⟩
  obtain ⟨⟨h1, h2⟩, h3, h4⟩ := hN n hn
  have hrun : Run E K False noPerm (only allPaths) (decodeEntry E n text path) {} fun _ _ => True := by
    refine decodeEntry_run (W.empty E) h0 ?_ ?_
    · exact (decodeLibrary_run (K' := K) (T' := allPaths) trivial (fun _ h => h) (fun _ h => h) id h2 (fun d v _ _ => (h1 _).1)
        (fun s1 l hx _ _ => hreg {} s1 l hx) (W.empty E) h0).post fun _ _ _ _ _ => trivial
    · exact (decodeDataType_run (K' := K) (T' := allPaths) trivial (fun _ h => h) (fun _ h => h) id (fun _ => h4) (fun d hd _ fs hfs' => h3 d hd fs hfs') (fun d v _ _ _ => (h1 _).1)
        (fun s1 l hx _ _ => hreg' {} s1 l hx) (W.empty E) h0).post fun _ _ _ _ _ => trivial
  unfold Run at hrun
  cases hm : decodeEntry E n text path {} with
  | mk o t =>
    rw [hm] at hd hrun
    simp only at hd
    subst hd
    exact hrun

end GoRaml.Load
