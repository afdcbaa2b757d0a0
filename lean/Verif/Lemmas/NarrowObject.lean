import Verif.Lemmas.NarrowMain

/-! Inheritance on the heap narrows (C16): objects and the main theorem. -/

namespace GoRaml

open Spec

theorem OMap.set_append {α : Type} (m : OMap α) (k : String) (v : α) (h : OMap.get m k = none) :
    OMap.set m k v = m ++ [(k, v)] := by
  induction m with
  | nil => rfl
  | cons p m ih =>
    obtain ⟨k', v'⟩ := p
    simp only [OMap.get] at h
    split at h
    · cases h
    · rename_i hk
      simp [OMap.set, hk, ih h]

theorem merged_snoc_absent {ps done : OMap Property} {q : String × Property} (h : ∀ p ∈ ps, p.1 ≠ q.1) :
    mergedProps ps (done ++ [q]) = mergedProps ps done ++ [q] := by
  have : (ps.all fun p => p.1 ≠ q.1) = true := by simpa using h
  simp only [mergedProps, List.filter_append, List.filter_cons, this, List.filter_nil, if_true, List.append_assoc]

theorem merged_snoc_present {ps done : OMap Property} {q : String × Property} (h : ∃ p ∈ ps, p.1 = q.1) :
    mergedProps ps (done ++ [q]) = mergedProps ps done := by
  have : (ps.all fun p => p.1 ≠ q.1) = false := by simpa using h
  simp only [mergedProps, List.filter_append, List.filter_cons, this, List.filter_nil]
  simp

theorem merged_get {ps done : OMap Property} {k : String} (hk : ∀ q ∈ done, q.1 ≠ k) :
    OMap.get (mergedProps ps done) k = OMap.get ps k := by
  cases hg : OMap.get ps k with
  | some p =>
    rw [OMap.get_some_iff] at hg ⊢
    exact hg.append_left
  | none =>
    rw [OMap.get_none_iff] at hg ⊢
    intro q hq
    rcases mem_merged.1 hq with hq | ⟨hq, _⟩
    · exact hg q hq
    · exact hk q hq

/-- What holds while the parent's properties are merged into the child's map `i`; `done` are the entries already
processed. -/
structure LoopInv (E : Ext) (h : St) (a b : Addr) (i : Nat) (ps done : OMap Property) (hc : St) : Prop where
  map : hc.pmaps[i]? = some (mergedProps ps done)
  frame : Agree (fun l => l ≠ .props i ∧ ∀ k tp, Declares ps k tp → (∃ q ∈ done, q.1 = k) → ¬ Part h tp.base l) h hc
  ppmaps : hc.ppmaps = h.ppmaps
  anys : ∀ x, hc.shapeAt x = some .any → h.shapeAt x = some .any
  idle : ∀ x, visitedAt h x = some false → h.shapeAt x ≠ some .any → visitedAt hc x = some false
  stays : Stays hc (fun l => Part h a l ∨ Part h b l)
  pair : ∀ k tp sp, Declares ps k tp → (k, sp) ∈ done → (sp.required = true → tp.required = true) ∧
    (∀ l, Part hc tp.base l → Part h tp.base l ∨ Part h sp.base l) ∧ ∀ v, Valid E hc tp.base v → Valid E h sp.base v

theorem props_loop {E : Ext} {rec : Addr → Addr → M St Addr} (ih : NarrowIH E rec) {h : St} {a b : Addr} {f g : ObjectF}
    {i : Nat} {ps qs : OMap Property}
    (ha : h.shapeAt a = some (.object f)) (hb : h.shapeAt b = some (.object g)) (hfi : f.properties = some i)
    (hps : h.props (some i) = ps) (hqs : h.props g.properties = qs) (hap : Apart h a b) (hnd : (qs.map (·.1)).Nodup)
    (hm : ∀ k tp sp, Declares ps k tp → Declares qs k sp → MayNarrow E.reMatch h tp.base sp.base)
    (hsep : ∀ k tp sp, Declares ps k tp → Declares qs k sp → ¬ Part h tp.base (.props i))
    (hdis : ∀ k k' tp tp', k ≠ k' → Declares ps k tp → Declares ps k' tp' →
        (∃ q ∈ qs, q.1 = k) → (∃ q ∈ qs, q.1 = k') → Apart h tp.base tp'.base) :
    ∀ (rest done : OMap Property) (hc h' : St), qs = done ++ rest → LoopInv E h a b i ps done hc →
      M.forEach (inheritProp rec i) rest hc = (.ok (), h') → LoopInv E h a b i ps qs h' := by
  have hpa : ∀ k tp, Declares ps k tp → ∀ l, Part h tp.base l → Part h a l := by
    intro k tp htp l hl
    refine .sub ha (.property (p := (k, tp)) ?_) hl
    rw [hfi, hps]; exact htp.mem
  have hpb : ∀ q ∈ qs, ∀ l, Part h q.2.base l → Part h b l := by
    intro q hq l hl
    refine .sub hb (.property (p := q) ?_) hl
    rw [hqs]; exact hq
  have hia : Part h a (.props i) := .props ha hfi
  have hdq : ∀ q ∈ qs, Declares qs q.1 q.2 := by
    intro q hq
    obtain ⟨pre, post, hpp⟩ := List.append_of_mem hq
    refine ⟨pre, post, hpp, fun r hr hk => ?_⟩
    rw [hpp] at hnd
    simp only [List.map_append, List.map_cons] at hnd
    exact (List.nodup_append.1 hnd).2.2 _ (List.mem_map.2 ⟨r, hr, rfl⟩) _ List.mem_cons_self hk
  intro rest
  induction rest with
  | nil =>
    intro done hc h' hq inv hr
    obtain ⟨_, rfl⟩ := M.ret_ok.1 hr
    rw [hq, List.append_nil]; exact inv
  | cons kp rest ihl =>
    obtain ⟨k, sp⟩ := kp
    intro done hc h' hq inv hr
    obtain ⟨_, hn, hr1, hr2⟩ := M.bind_ok.1 hr
    have hmem : (k, sp) ∈ qs := by rw [hq]; simp
    have hkd : ∀ q ∈ done, q.1 ≠ k := by
      intro q hqd hk
      rw [hq] at hnd
      simp only [List.map_append, List.map_cons] at hnd
      exact (List.nodup_append.1 hnd).2.2 _ (List.mem_map.2 ⟨q, hqd, rfl⟩) _ List.mem_cons_self hk
    have hdone : ∀ q ∈ done, q ∈ qs := fun q hqd => by rw [hq]; simp [hqd]
    have hq' : qs = (done ++ [(k, sp)]) ++ rest := by rw [hq]; simp
    refine ihl (done ++ [(k, sp)]) hn h' hq' ?_ hr2
    -- one iteration
    have hprops : hc.props (some i) = mergedProps ps done := by simp [St.props, inv.map]
    -- cells of the parent are untouched
    have hfb : Agree (Part h b) h hc := by
      refine inv.frame.mono fun l hl => ⟨fun e => hap _ hia (by rw [← e]; exact hl), fun k' tp htp _ hl' => hap l (hpa k' tp htp l hl') hl⟩
    unfold inheritProp at hr1
    rw [M.get_bind] at hr1
    simp only [hprops, merged_get hkd] at hr1
    cases hg : OMap.get ps k with
    | none =>
      rw [hg] at hr1
      have hno : ∀ p ∈ ps, p.1 ≠ k := (OMap.get_none_iff ps k).1 hg
      simp only [Heap.setProp, Prod.mk.injEq, true_and] at hr1
      have hset : hn.pmaps[i]? = some (mergedProps ps (done ++ [(k, sp)])) := by
        rw [← hr1]
        simp only [List.getElem?_modify, inv.map, if_true, Option.map_eq_map, Option.map_some, Option.some.injEq]
        rw [OMap.set_append _ _ _ (by rw [merged_get hkd]; exact hg), merged_snoc_absent hno]
      have hother : Agree (fun l => l ≠ .props i) hc hn := by
        rw [← hr1]
        refine ⟨fun _ _ => rfl, fun j hj => ?_, fun _ _ => rfl, rfl⟩
        have : ¬ i = j := fun e => hj (by rw [e])
        simp [List.getElem?_modify, this]
      have hbase : ∀ x, hn.base x = hc.base x := by intro x; rw [← hr1]; rfl
      have hsh : ∀ x, hn.shapeAt x = hc.shapeAt x := by intro x; simp [St.shapeAt, hbase]
      refine ⟨hset, ?_, by rw [← hr1]; exact inv.ppmaps, ?_, ?_, ?_, ?_⟩
      · refine (inv.frame.mono fun l hl => ⟨hl.1, fun k' tp htp hex => hl.2 k' tp htp ?_⟩).trans (hother.mono fun l hl => hl.1)
        obtain ⟨q, hqd, hqk⟩ := hex
        exact ⟨q, List.mem_append_left _ hqd, hqk⟩
      · intro x hx; rw [hsh] at hx; exact inv.anys x hx
      · intro x hx hs
        have := inv.idle x hx hs
        simpa [visitedAt, hbase] using this
      · have st := inv.stays
        refine ⟨?_, ?_, ?_, ?_, ?_, ?_, ?_⟩
        · intro x f i h1 h2 h3; rw [hsh] at h2; exact st.propsPtr h1 h2 h3
        · intro x f i h1 h2 h3; rw [hsh] at h2; exact st.patPtr h1 h2 h3
        · intro x f i h1 h2 h3; rw [hsh] at h2; exact st.items h1 h2 h3
        · intro x l e y h1 h2 h3; rw [hsh] at h2; rw [hother.slice_eq] at h3; exact st.member h1 h2 h3
        · intro x y h1 h2; rw [hsh] at h2; exact st.head h1 h2
        · intro j p h1 h2
          by_cases hij : j = i
          · subst hij
            simp only [St.props, hset, Option.getD_some] at h2
            rw [merged_snoc_absent hno] at h2
            rcases List.mem_append.1 h2 with h2 | h2
            · exact st.props h1 (by rw [hprops]; exact h2)
            · simp only [List.mem_singleton] at h2
              subst h2
              exact Or.inr (hpb _ hmem _ (.self _))
          · rw [hother.props_eq (p := some j) (fun j' hj' => by cases hj'; simpa using hij)] at h2
            exact st.props h1 h2
        · intro j p h1 h2
          rw [hother.patProps_eq (fun j' hj' => by simp)] at h2
          exact st.patProps h1 h2
      · intro k' tp sp' htp hin
        rcases List.mem_append.1 hin with hin | hin
        · obtain ⟨h1, h2, h3⟩ := inv.pair k' tp sp' htp hin
          have hin' := hdone _ hin
          have hag : Agree (Part hc tp.base) hc hn := by
            refine hother.mono fun l hl e => ?_
            subst e
            rcases h2 _ hl with hl | hl
            · exact hsep k' tp sp' htp (hdq _ hin') hl
            · exact hap _ hia (hpb _ hin' _ hl)
          refine ⟨h1, fun l hl => h2 l ((part_of_agree hag l).1 hl), fun v hv => h3 v ?_⟩
          rwa [valid_agree hag] at hv
        · simp only [List.mem_singleton, Prod.mk.injEq] at hin
          exact absurd hin.1 (by rw [← (show (k', tp).1 = k' from rfl)]; exact hno _ htp.mem)
    | some tp =>
      rw [hg] at hr1
      have htp : Declares ps k tp := (OMap.get_some_iff ps k tp).1 hg
      simp only at hr1
      split at hr1
      · simp [M.err] at hr1
      rename_i hreq
      have hreq' : sp.required = true → tp.required = true := by
        intro h1; cases h2 : tp.required
        · exact absurd (by simp [h1, h2]) hreq
        · rfl
      obtain ⟨r, hn', hrec, hr3⟩ := M.bind_ok.1 hr1
      obtain ⟨_, rfl⟩ := M.ret_ok.1 hr3
      have hdsp : Declares qs k sp := hdq _ hmem
      -- this pair is untouched so far
      have hft : Agree (Part h tp.base) h hc := by
        refine inv.frame.mono fun l hl => ⟨fun e => ?_, fun k' tp' htp' hex hl' => ?_⟩
        · subst e; exact hsep k tp sp htp hdsp hl
        · obtain ⟨q, hqd, hqk⟩ := hex
          have : k' ≠ k := fun e => hkd q hqd (by rw [hqk, e])
          exact hdis k' k tp' tp this htp' htp ⟨q, hdone q hqd, hqk⟩ ⟨_, hmem, rfl⟩ l hl' hl
      have hfs : Agree (Part h sp.base) h hc := hfb.mono fun l hl => hpb _ hmem l hl
      have hptp : ∀ l, Part hc tp.base l ↔ Part h tp.base l := fun l => part_of_agree hft l
      have hpsp : ∀ l, Part hc sp.base l ↔ Part h sp.base l := fun l => part_of_agree hfs l
      have N := ih hc tp.base sp.base hn' r
        ((hm k tp sp htp hdsp).transport
          ⟨fun x hx => hx.elim (hft.bases x) (hfs.bases x), fun x hx => hx.elim (hft.props x) (hfs.props x),
            fun x hx => hx.elim (hft.patProps x) (hfs.patProps x), hft.slices⟩
          (fun x _ hv hs => inv.idle x hv hs))
        (by
          intro l hl hl'
          rw [hptp] at hl; rw [hpsp] at hl'
          exact hap l (hpa k tp htp l hl) (hpb _ hmem l hl')) hrec
      have hNf : Agree (fun l => ¬ Part h tp.base l) hc hn' := N.frame.mono fun l hl => by rwa [hptp]
      refine ⟨?_, ?_, by rw [N.ppmaps]; exact inv.ppmaps, ?_, ?_, ?_, ?_⟩
      · rw [hNf.props i (hsep k tp sp htp hdsp), inv.map, merged_snoc_present (q := (k, sp)) ⟨(k, tp), htp.mem, rfl⟩]
      · refine (inv.frame.mono fun l hl => ⟨hl.1, fun k' tp' htp' hex => hl.2 k' tp' htp' ?_⟩).trans (hNf.mono fun l hl => ?_)
        · exact hl.2 k tp htp ⟨(k, sp), by simp, rfl⟩
        · obtain ⟨q, hqd, hqk⟩ := hex
          exact ⟨q, List.mem_append_left _ hqd, hqk⟩
      · intro x hx; exact inv.anys x (N.anys x hx)
      · intro x hx hs
        exact N.idle x (inv.idle x hx hs) (fun e => hs (inv.anys x e))
      · refine inv.stays.change (T := fun l => Part hc tp.base l ∨ Part hc sp.base l)
          (N.frame.mono fun l hl hl' => hl (Or.inl hl')) N.stays (fun l hl => ?_)
        rcases hl with hl | hl
        · exact Or.inl (hpa k tp htp l ((hptp l).1 hl))
        · exact Or.inr (hpb _ hmem l ((hpsp l).1 hl))
      · intro k' tp' sp' htp' hin
        rcases List.mem_append.1 hin with hin | hin
        · obtain ⟨h1, h2, h3⟩ := inv.pair k' tp' sp' htp' hin
          have hin' := hdone _ hin
          have hkk : k' ≠ k := hkd _ hin
          have hag : Agree (Part hc tp'.base) hc hn' := by
            refine hNf.mono fun l hl hl' => ?_
            rcases h2 _ hl with hl | hl
            · exact hdis k' k tp' tp hkk htp' htp ⟨_, hin', rfl⟩ ⟨_, hmem, rfl⟩ l hl hl'
            · exact hap _ (hpa k tp htp l hl') (hpb _ hin' _ hl)
          refine ⟨h1, fun l hl => h2 l ((part_of_agree hag l).1 hl), fun v hv => h3 v ?_⟩
          rwa [valid_agree hag] at hv
        · simp only [List.mem_singleton, Prod.mk.injEq] at hin
          obtain ⟨rfl, rfl⟩ := hin
          have : tp' = tp := by
            have := (OMap.get_some_iff ps k' tp').2 htp'
            rw [hg] at this; simpa using this.symm
          subst this
          refine ⟨hreq', fun l hl => ?_, fun v hv => ?_⟩
          · rcases N.stays.part (Or.inl (.self _)) hl with hl | hl
            · exact Or.inl ((hptp l).1 hl)
            · exact Or.inr ((hpsp l).1 hl)
          · have := N.valid v hv
            rwa [valid_agree hfs] at this

theorem objectAt_eq {h : St} {a : Addr} {f : ObjectF} (hs : h.shapeAt a = some (.object f)) : objectAt h a = f := by
  simp [objectAt, hs]

/-- The result of merging the properties. -/
structure PropsMerged (E : Ext) (h h' : St) (a b : Addr) (f g f' : ObjectF) : Prop where
  shape : h'.shapeAt a = some (.object f')
  rest : f' = { f with properties := f'.properties }
  ptr : f'.properties = f.properties ∨ f'.properties = g.properties
  props : h'.props f'.properties = mergedProps (h.props f.properties) (h.props g.properties)
  frame : Agree (fun l => ¬ Part h a l) h h'
  ppmaps : h'.ppmaps = h.ppmaps
  anys : ∀ x, h'.shapeAt x = some .any → h.shapeAt x = some .any
  idle : ∀ x, visitedAt h x = some false → h.shapeAt x ≠ some .any → visitedAt h' x = some false
  stays : Stays h' (fun l => Part h a l ∨ Part h b l)
  pair : ∀ k tp sp, Declares (h.props f.properties) k tp → Declares (h.props g.properties) k sp →
    (sp.required = true → tp.required = true) ∧
    (∀ l, Part h' tp.base l → Part h tp.base l ∨ Part h sp.base l) ∧ ∀ v, Valid E h' tp.base v → Valid E h sp.base v

theorem props_phase {E : Ext} {rec : Addr → Addr → M St Addr} (ih : NarrowIH E rec) {h h' : St} {a b : Addr} {f g : ObjectF}
    (ha : h.shapeAt a = some (.object f)) (hb : h.shapeAt b = some (.object g)) (hap : Apart h a b)
    (hnd : ((h.props g.properties).map (·.1)).Nodup) (hptr : ∀ i, f.properties = some i → ∃ ps, h.pmaps[i]? = some ps)
    (hm : ∀ k tp sp, Declares (h.props f.properties) k tp → Declares (h.props g.properties) k sp →
        MayNarrow E.reMatch h tp.base sp.base)
    (hsep : ∀ k tp sp, Declares (h.props f.properties) k tp → Declares (h.props g.properties) k sp →
        ¬ Part h tp.base (.base a) ∧ (∀ i, f.properties = some i → ¬ Part h tp.base (.props i)))
    (hdis : ∀ k k' tp tp', k ≠ k' → Declares (h.props f.properties) k tp → Declares (h.props f.properties) k' tp' →
        (∃ q ∈ h.props g.properties, q.1 = k) → (∃ q ∈ h.props g.properties, q.1 = k') → Apart h tp.base tp'.base)
    (hr : inheritProperties rec a b h = (.ok (), h')) : ∃ f', PropsMerged E h h' a b f g f' := by
  have hab : a ≠ b := fun e => hap (.base a) (.self _) (by rw [e]; exact .self _)
  have nodecl : ∀ k tp, ¬ Declares (h.props none) k tp := by
    intro k tp hd; have := hd.mem; simp [St.props] at this
  unfold inheritProperties at hr
  rw [M.get_bind] at hr
  simp only [objectAt_eq ha, objectAt_eq hb] at hr
  cases hfp : f.properties with
  | none =>
    simp only [hfp] at hr
    rw [setObject_eq ha] at hr
    have put := setShape_put ha hr
    refine ⟨{ f with properties := g.properties }, put.shape, rfl, Or.inr rfl, ?_, ?_, put.ppmaps, put.anys (by simp), ?_, ?_, ?_⟩
    · have : h'.props g.properties = h.props g.properties := by unfold St.props; rw [put.pmaps]
      simp only [this, hfp]
      simp [mergedProps, St.props]
    · exact put.agree.mono fun l hl e => hl (by rw [e]; exact .self _)
    · intro x hx _; rw [put.visited]; exact hx
    · refine ((stays_part h a).union (stays_part h b)).setBase put.agree ?_ ?_ ?_ ?_ ?_
      · intro f' i h1 h2
        rw [put.shape] at h1; simp at h1; subst h1
        exact Or.inr (.props hb h2)
      · intro f' i h1 h2
        rw [put.shape] at h1; simp at h1; subst h1
        exact Or.inl (.patProps ha h2)
      · intro f i h1; rw [put.shape] at h1; simp at h1
      · intro f i h1; rw [put.shape] at h1; simp at h1
      · intro i h1; rw [put.shape] at h1; simp at h1
    · intro k tp sp hd _
      rw [hfp] at hd
      exact absurd hd (nodecl k tp)
  | some i =>
    cases hgp : g.properties with
    | none =>
      simp only [hfp, hgp] at hr
      obtain ⟨_, rfl⟩ := M.ret_ok.1 hr
      refine ⟨f, ha, rfl, Or.inl rfl, ?_, Agree.refl _ _, rfl, fun _ h => h, fun _ h _ => h,
        (stays_part h a).union (stays_part h b), ?_⟩
      · simp [hgp, St.props, mergedProps]
      · intro k tp sp _ hd
        rw [hgp] at hd
        exact absurd hd (nodecl k sp)
    | some j =>
      simp only [hfp, hgp] at hr
      rw [hfp] at hm hsep hdis
      rw [hgp] at hm hsep hdis hnd
      obtain ⟨ps0, hps0⟩ := hptr i hfp
      have hps : h.props (some i) = ps0 := by simp [St.props, hps0]
      have inv0 : LoopInv E h a b i (h.props (some i)) [] h := by
        refine ⟨?_, Agree.refl _ _, rfl, fun _ h => h, fun _ h _ => h, (stays_part h a).union (stays_part h b), by simp⟩
        simp [mergedProps, hps, hps0]
      have inv := props_loop ih ha hb hfp rfl (by rw [hgp]) hap hnd hm (fun k tp sp h1 h2 => (hsep k tp sp h1 h2).2 i rfl) hdis
        (h.props (some j)) [] h h' rfl inv0 hr
      refine ⟨f, ?_, rfl, Or.inl rfl, ?_, ?_, inv.ppmaps, inv.anys, inv.idle, inv.stays, ?_⟩
      · rw [inv.frame.shapeAt, ha]
        refine ⟨by simp, fun k tp htp hex => ?_⟩
        obtain ⟨sp, hsp⟩ := declares_of_mem hex
        exact (hsep k tp sp htp hsp).1
      · rw [hfp]; simp [St.props, inv.map, hgp]
      · refine inv.frame.mono fun l hl => ⟨fun e => hl (by rw [e]; exact .props ha hfp), fun k tp htp hex hl' => hl ?_⟩
        exact .sub ha (.property (p := (k, tp)) (by rw [hfp]; exact htp.mem)) hl'
      · intro k tp sp h1 h2
        rw [hfp] at h1; rw [hgp] at h2
        exact inv.pair k tp sp h1 h2.mem

/-- The pattern properties phase when the child does not redeclare them. -/
theorem patterns_phase {rec : Addr → Addr → M St Addr} {h h' : St} {a b : Addr} {f g : ObjectF}
    (ha : h.shapeAt a = some (.object f)) (hb : h.shapeAt b = some (.object g))
    (hno : f.patternProperties = none ∨ h.patProps g.patternProperties = [])
    (hr : inheritPatternProperties rec a b h = (.ok (), h')) :
    (∃ _ : f.patternProperties = none, Put a (.object { f with patternProperties := g.patternProperties }) h h') ∨
    (h' = h ∧ h.patProps g.patternProperties = []) := by
  unfold inheritPatternProperties at hr
  rw [M.get_bind] at hr
  simp only [objectAt_eq ha, objectAt_eq hb] at hr
  cases hfp : f.patternProperties with
  | none =>
    simp only [hfp] at hr
    rw [setObject_eq ha] at hr
    exact Or.inl ⟨rfl, setShape_put ha hr⟩
  | some i =>
    have hno' : h.patProps g.patternProperties = [] := by simpa [hfp] using hno
    cases hgp : g.patternProperties with
    | none =>
      simp only [hfp, hgp] at hr
      obtain ⟨_, rfl⟩ := M.ret_ok.1 hr
      exact Or.inr ⟨rfl, rfl⟩
    | some j =>
      rw [hgp] at hno'
      simp only [hfp, hgp, hno'] at hr
      obtain ⟨_, rfl⟩ := M.ret_ok.1 hr
      exact Or.inr ⟨rfl, hno'⟩

theorem inheritOwn_ptrs {f g r : ObjectF} (h : f.inheritOwn g = .ok r) :
    r.properties = f.properties ∧ r.patternProperties = f.patternProperties := by
  simp only [ObjectF.inheritOwn] at h
  obtain ⟨lo, e1, h⟩ := Out.bind_ok.1 h
  obtain ⟨up, e2, h⟩ := Out.bind_ok.1 h
  simp at h; subst h; exact ⟨rfl, rfl⟩

theorem object_core {E : Ext} {rec : Addr → Addr → M St Addr} (ih : NarrowIH E rec) {h h' : St} {a b : Addr} {f g : ObjectF}
    (ha : h.shapeAt a = some (.object f)) (hb : h.shapeAt b = some (.object g)) (hap : Apart h a b)
    (hclosed : g.additionalProperties = some false → f.additionalProperties ≠ some true ∧
        ∀ p ∈ h.props f.properties, ∃ q ∈ h.props g.properties, q.1 = p.1)
    (hno : f.patternProperties = none ∨ h.patProps g.patternProperties = [])
    (hnew : ∀ p ∈ h.props f.properties, (∀ q ∈ h.props g.properties, q.1 ≠ p.1) →
        ∀ pp ∈ h.patProps g.patternProperties, E.reMatch pp.2.pattern p.1 = false)
    (hnd : ((h.props g.properties).map (·.1)).Nodup) (hptr : ∀ i, f.properties = some i → ∃ ps, h.pmaps[i]? = some ps)
    (hm : ∀ k tp sp, Declares (h.props f.properties) k tp → Declares (h.props g.properties) k sp →
        MayNarrow E.reMatch h tp.base sp.base)
    (hsep : ∀ k tp sp, Declares (h.props f.properties) k tp → Declares (h.props g.properties) k sp →
        ¬ Part h tp.base (.base a) ∧ (∀ i, f.properties = some i → ¬ Part h tp.base (.props i)))
    (hdis : ∀ k k' tp tp', k ≠ k' → Declares (h.props f.properties) k tp → Declares (h.props f.properties) k' tp' →
        (∃ q ∈ h.props g.properties, q.1 = k) → (∃ q ∈ h.props g.properties, q.1 = k') → Apart h tp.base tp'.base)
    (hr : inheritObject rec a b h = (.ok (), h')) : Narrowed E h h' a b := by
  have hab : a ≠ b := fun e => hap (.base a) (.self _) (by rw [e]; exact .self _)
  unfold inheritObject at hr
  rw [M.get_bind] at hr
  obtain ⟨f1, hx, hr1, hr2⟩ := M.bind_ok.1 hr
  obtain ⟨hown, rfl⟩ := M.lift_ok.1 hr1
  rw [objectAt_eq ha, objectAt_eq hb] at hown
  obtain ⟨_, h2, hr3, hr4⟩ := M.bind_ok.1 hr2
  obtain ⟨_, h3, hr5, hr6⟩ := M.bind_ok.1 hr4
  rw [setObject_eq ha] at hr3
  have put := setShape_put ha hr3
  obtain ⟨ep, epp⟩ := inheritOwn_ptrs hown
  have e2b : h2.shapeAt b = some (.object g) := by rw [put.other hab.symm]; exact hb
  have epr : ∀ p, h2.props p = h.props p := by intro p; unfold St.props; rw [put.pmaps]
  have epa : ∀ p, h2.patProps p = h.patProps p := by intro p; unfold St.patProps; rw [put.ppmaps]
  have hnb : ∀ l, Part h b l → l ≠ .base a := fun l hl e => hap l (by rw [e]; exact .self _) hl
  -- cells of the parent and of the paired properties
  have hpb : ∀ l, Part h2 b l ↔ Part h b l := put.part (fun hl => hnb _ hl rfl)
  have hpt : ∀ k tp sp, Declares (h.props f.properties) k tp → Declares (h.props g.properties) k sp → ∀ l,
      Part h2 tp.base l ↔ Part h tp.base l := fun k tp sp h1 h2 => put.part (hsep k tp sp h1 h2).1
  have hps : ∀ q ∈ h.props g.properties, ∀ l, Part h2 q.2.base l ↔ Part h q.2.base l := by
    intro q hq
    exact put.part (fun hl => hnb _ (.sub hb (.property hq) hl) rfl)
  have st2 : Stays h2 (fun l => Part h a l ∨ Part h b l) := by
    refine ((stays_part h a).union (stays_part h b)).setBase put.agree ?_ ?_ ?_ ?_ ?_
    · intro f' i h1 h2
      rw [put.shape] at h1; simp at h1; subst h1
      exact Or.inl (.props ha (by rw [← ep]; exact h2))
    · intro f' i h1 h2
      rw [put.shape] at h1; simp at h1; subst h1
      exact Or.inl (.patProps ha (by rw [← epp]; exact h2))
    · intro f i h1; rw [put.shape] at h1; simp at h1
    · intro f i h1; rw [put.shape] at h1; simp at h1
    · intro i h1; rw [put.shape] at h1; simp at h1
  -- the cells of the child do not change
  have hpa : ∀ l, Part h2 a l → Part h a l := by
    have sa : Stays h2 (Part h a) := by
      refine (stays_part h a).setBase put.agree ?_ ?_ ?_ ?_ ?_
      · intro f' i h1 h2
        rw [put.shape] at h1; simp at h1; subst h1
        exact .props ha (by rw [← ep]; exact h2)
      · intro f' i h1 h2
        rw [put.shape] at h1; simp at h1; subst h1
        exact .patProps ha (by rw [← epp]; exact h2)
      · intro f i h1; rw [put.shape] at h1; simp at h1
      · intro f i h1; rw [put.shape] at h1; simp at h1
      · intro i h1; rw [put.shape] at h1; simp at h1
    intro l hl
    exact sa.part (.self _) hl
  have hap2 : Apart h2 a b := fun l hl hl' => hap l (hpa l hl) ((hpb l).1 hl')
  obtain ⟨f3, M3⟩ := props_phase ih put.shape e2b hap2 (by rw [epr]; exact hnd)
    (by rw [ep, put.pmaps]; exact hptr)
    (by
      rw [ep, epr, epr]
      intro k tp sp h1 h2'
      have hsp : ∀ l, Part h sp.base l → l ≠ .base a := fun l hl => hnb l (.sub hb (.property h2'.mem) hl)
      refine (hm k tp sp h1 h2').transport (put.agree.mono fun l hl => ?_) (fun x _ hv _ => by rw [put.visited]; exact hv)
      rcases hl with hl | hl
      · rintro rfl; exact (hsep k tp sp h1 h2').1 hl
      · exact hsp l hl)
    (by
      rw [ep, epr, epr]
      intro k tp sp h1 h2'
      refine ⟨?_, fun i hi => ?_⟩
      · rw [hpt k tp sp h1 h2']; exact (hsep k tp sp h1 h2').1
      · rw [hpt k tp sp h1 h2']; exact (hsep k tp sp h1 h2').2 i hi)
    (by
      rw [ep, epr, epr]
      intro k k' tp tp' hk h1 h2' hq hq' l hl hl'
      obtain ⟨sp, hsp⟩ := declares_of_mem hq
      obtain ⟨sp', hsp'⟩ := declares_of_mem hq'
      rw [hpt k tp sp h1 hsp] at hl
      rw [hpt k' tp' sp' h2' hsp'] at hl'
      exact hdis k k' tp tp' hk h1 h2' hq hq' l hl hl')
    hr5
  have hprops3 := M3.props
  have hpair3 := M3.pair
  rw [ep, epr, epr] at hprops3 hpair3
  -- phase three
  have e3b : h3.shapeAt b = some (.object g) := by
    rw [M3.frame.shapeAt (fun hl => hap _ (hpa _ hl) (.self _))]; exact e2b
  have epa3 : ∀ p, h3.patProps p = h.patProps p := by intro p; unfold St.patProps; rw [M3.ppmaps, put.ppmaps]
  have epp3 : f3.patternProperties = f.patternProperties := by rw [M3.rest]; exact epp
  have st3 : Stays h3 (fun l => Part h a l ∨ Part h b l) := by
    refine st2.change (T := fun l => Part h2 a l ∨ Part h2 b l) (M3.frame.mono fun l hl hl' => hl (Or.inl hl')) M3.stays
      (fun l hl => hl.imp (hpa l) (hpb l).1)
  have frame3 : Agree (fun l => ¬ Part h a l) h h3 :=
    (put.agree.mono fun l hl e => hl (by rw [e]; exact .self _)).trans (M3.frame.mono fun l hl hl' => hl (hpa l hl'))
  have anys3 : ∀ x, h3.shapeAt x = some .any → h.shapeAt x = some .any := fun x hx =>
    put.anys (by simp) x (M3.anys x hx)
  have idle3 : ∀ x, visitedAt h x = some false → h.shapeAt x ≠ some .any → visitedAt h3 x = some false := fun x hx hs =>
    M3.idle x (by rw [put.visited]; exact hx) (fun e => hs (put.anys (by simp) x e))
  have final : ∀ f4 : ObjectF, h'.shapeAt a = some (.object f4) → Agree (fun l => l ≠ .base a) h3 h' → h'.pmaps = h3.pmaps →
      h'.ppmaps = h3.ppmaps → (∀ x, visitedAt h' x = visitedAt h3 x) → f4.properties = f3.properties →
      (f4.additionalProperties = f3.additionalProperties ∧ f4.minProperties = f3.minProperties ∧
        f4.maxProperties = f3.maxProperties) →
      (f4.patternProperties = f.patternProperties ∧ h.patProps g.patternProperties = [] ∨
        f4.patternProperties = g.patternProperties) → Narrowed E h h' a b := by
    intro f4 hs4 ag epm eppm hvis hfp hfe hfpp
    have frame : Agree (fun l => ¬ Part h a l) h h' := frame3.trans (ag.mono fun l hl e => hl (by rw [e]; exact .self _))
    have hvalb : ∀ y, (∀ l, Part h y l → Part h b l) → ∀ v, Valid E h' y v ↔ Valid E h y v := by
      intro y hy v
      exact valid_agree (frame.mono fun l hl hl' => hap l hl' (hy l hl)) v
    refine ⟨frame, by rw [eppm, M3.ppmaps, put.ppmaps], ?_, ?_, ?_, ?_⟩
    · intro x hx
      by_cases hxa : x = a
      · subst hxa; rw [hs4] at hx; simp at hx
      · rw [ag.shapeAt (by simpa using hxa)] at hx; exact anys3 x hx
    · intro x hx hs; rw [hvis]; exact idle3 x hx hs
    · refine st3.setBase ag ?_ ?_ ?_ ?_ ?_
      · intro f' i h1 h2
        rw [hs4] at h1; simp at h1; subst h1
        rw [hfp] at h2
        rcases M3.ptr with e | e
        · rw [e, ep] at h2; exact Or.inl (.props ha h2)
        · rw [e] at h2; exact Or.inr (.props hb h2)
      · intro f' i h1 h2
        rw [hs4] at h1; simp at h1; subst h1
        rcases hfpp with ⟨e, _⟩ | e
        · rw [e] at h2; exact Or.inl (.patProps ha h2)
        · rw [e] at h2; exact Or.inr (.patProps hb h2)
      · intro f i h1; rw [hs4] at h1; simp at h1
      · intro f i h1; rw [hs4] at h1; simp at h1
      · intro i h1; rw [hs4] at h1; simp at h1
    · intro v hv
      rw [valid_iff_step] at hv ⊢
      unfold Step at hv ⊢
      rw [hs4] at hv
      rw [hb]
      simp only at hv ⊢
      have ef1 : f3.additionalProperties = f1.additionalProperties ∧ f3.minProperties = f1.minProperties ∧
          f3.maxProperties = f1.maxProperties := by rw [M3.rest]; exact ⟨rfl, rfl, rfl⟩
      refine object_level hown (hfe.1.trans ef1.1) (hfe.2.1.trans ef1.2.1) (hfe.2.2.trans ef1.2.2) ?_ ?_ hclosed hnew hnd ?_ ?_ ?_ hv
      · rw [hfp, ← hprops3]; unfold St.props; rw [epm]
      · rcases hfpp with ⟨_, e⟩ | e
        · exact Or.inl e
        · right; rw [e]; unfold St.patProps; rw [eppm, M3.ppmaps, put.ppmaps]
      · intro k tp sp h1 h2'
        obtain ⟨h4, h5, h6⟩ := hpair3 k tp sp h1 h2'
        refine ⟨h4, fun x hx => ?_⟩
        have hna : Agree (Part h3 tp.base) h3 h' := by
          refine ag.mono fun l hl e => ?_
          subst e
          rcases h5 _ hl with hl | hl
          · rw [hpt k tp sp h1 h2'] at hl
            exact (hsep k tp sp h1 h2').1 hl
          · rw [hps (k, sp) h2'.mem] at hl
            exact hnb _ (.sub hb (.property h2'.mem) hl) rfl
        rw [valid_agree hna] at hx
        have := h6 x hx
        rwa [put.valid] at this
        exact fun hl => hnb _ (.sub hb (.property h2'.mem) hl) rfl
      · intro q hq _ x hx
        rwa [hvalb q.2.base (fun l hl => .sub hb (.property hq) hl)] at hx
      · intro q hq x hx
        rwa [hvalb q.2.base (fun l hl => .sub hb (.pattern hq) hl)] at hx
  rcases patterns_phase M3.shape e3b (by rw [epp3, epa3]; exact hno) hr6 with ⟨_, p4⟩ | ⟨rfl, hnil⟩
  · exact final _ p4.shape p4.agree p4.pmaps p4.ppmaps p4.visited rfl ⟨rfl, rfl, rfl⟩ (Or.inr rfl)
  · rw [epa3] at hnil
    exact final f3 M3.shape (Agree.refl _ _) rfl rfl (fun _ => rfl) rfl ⟨rfl, rfl, rfl⟩ (Or.inl ⟨epp3, hnil⟩)

/-! ## The main theorem -/

theorem narrow_any {E : Ext} {n : Nat} {h h' : St} {a b r : Addr} (hb : h.shapeAt b = some .any)
    (hr : inherit n a b h = (.ok r, h')) : Narrowed E h h' a b := by
  have hvalid : ∀ v, Valid E h b v := by
    intro v; rw [valid_iff_step]; unfold Step; rw [hb]; trivial
  have hst := (stays_part h a).union (stays_part h b)
  cases n with
  | zero => simp [inherit, M.diverge] at hr
  | succ n =>
    obtain ⟨bb, hbb, hbb'⟩ := base_of_shape hb
    cases hba : h.base a with
    | none =>
      simp only [inherit] at hr
      obtain ⟨x, h1, hr1, _⟩ := M.bind_ok.1 hr
      simp [Heap.getBase, hba] at hr1
    | some ba =>
      cases hv : bb.visited with
      | true =>
        simp only [inherit] at hr
        rw [M.bind_of_ok (show Heap.getBase a h = (.ok ba, h) by simp [Heap.getBase, hba]),
          M.bind_of_ok (show Heap.getBase b h = (.ok bb, h) by simp [Heap.getBase, hbb])] at hr
        simp only [hv, if_true] at hr
        obtain ⟨_, rfl⟩ := M.ret_ok.1 hr
        exact ⟨Agree.refl _ _, rfl, fun _ h => h, fun _ h _ => h, hst, fun v _ => hvalid v⟩
      | false =>
        obtain ⟨h1, c, hvis, hrun⟩ := inherit_prelude hba hbb hv n
        rw [hrun] at hr
        obtain ⟨b1, hb1, _⟩ := c.type hba
        obtain ⟨b2, hb2, hb2'⟩ := base_of_shape (show h1.shapeAt b = some .any by rw [c.shapeAt, hb])
        unfold inheritDispatch at hr
        rw [M.bind_of_ok (show Heap.getBase a h1 = (.ok b1, h1) by simp [Heap.getBase, hb1]),
          M.bind_of_ok (show Heap.getBase b h1 = (.ok b2, h1) by simp [Heap.getBase, hb2])] at hr
        rw [hb2'] at hr
        obtain ⟨_, rfl⟩ := M.ret_ok.1 hr
        refine ⟨c.agree _, c.ppmaps, fun x hx => by rwa [c.shapeAt] at hx, ?_, ?_, fun v _ => hvalid v⟩
        · intro x hx hs
          have hxb : x ≠ b := fun e => hs (by rw [e]; exact hb)
          rw [hvis, if_neg hxb]; exact hx
        · exact hst.change (T := fun _ => False) (c.agree _) ⟨fun h => h.elim, fun h => h.elim, fun h => h.elim,
            fun h => h.elim, fun h => h.elim, fun h => h.elim, fun h => h.elim⟩ (fun _ h => h.elim)

/-- Under the conditions of `MayNarrow`, a successful `Inherit` only narrows. -/
theorem inherit_narrow (E : Ext) : ∀ n, NarrowIH E (inherit n) := by
  intro n
  induction n with
  | zero => intro h a b h' r _ _ hr; simp [inherit, M.diverge] at hr
  | succ n ih =>
    intro h a b h' r hm hap hr
    have idle : Idle h b → visitedAt h b = some false := by
      rintro ⟨x, h1, h2⟩; simp [visitedAt, h1, h2]
    cases hm with
    | any hb => exact narrow_any hb hr
    | @scalar _ _ t s ha hb hid hn =>
      by_cases hs : s = .any
      · subst hs; exact narrow_any hb hr
      · have hs2 : ∀ l e, s ≠ .union l e := by
          intro l e e'; subst e'; cases t <;> exact hn
        have ht2 : ∀ l e, t ≠ .union l e := by
          intro l e e'; subst e'; cases s <;> exact hn
        obtain ⟨rfl, h1, h2, c, hvis, hrun, hh⟩ := inherit_homog ha hb (idle hid) ht2 hs hs2 hr
        refine narrowed_wrap c hvis hb hap ?_ hh
        exact scalar_core (by rw [c.shapeAt, ha]) (by rw [c.shapeAt, hb]) hs hn hrun
    | @array _ _ f g ha hb hid hm hsep =>
      obtain ⟨rfl, h1, h2, c, hvis, hrun, hh⟩ := inherit_homog ha hb (idle hid) (by simp) (by simp) (by simp) hr
      refine narrowed_wrap c hvis hb hap ?_ hh
      have hp : ∀ y l, Part h1 y l ↔ Part h y l := fun y l => part_of_agree (c.agree _) l
      refine array_core ih (f := f) (g := g) (by rw [c.shapeAt, ha]) (by rw [c.shapeAt, hb])
        (fun l hl hl' => hap l ((hp _ _).1 hl) ((hp _ _).1 hl')) ?_ ?_ hrun
      · intro i j hi hj
        refine (hm i j hi hj).transport (c.agree _) (fun x hx hv _ => ?_)
        have hxb : x ≠ b := by rintro rfl; exact (hsep i j hi hj).2 hx
        rw [hvis, if_neg hxb]; exact hv
      · intro i j hi hj
        rw [hp]; exact (hsep i j hi hj).1
    | @object _ _ f g ha hb hid hclosed hno hnew hnd hptr hm hsep hdis =>
      obtain ⟨rfl, h1, h2, c, hvis, hrun, hh⟩ := inherit_homog ha hb (idle hid) (by simp) (by simp) (by simp) hr
      refine narrowed_wrap c hvis hb hap ?_ hh
      have hp : ∀ y l, Part h1 y l ↔ Part h y l := fun y l => part_of_agree (c.agree _) l
      refine object_core ih (f := f) (g := g) (by rw [c.shapeAt, ha]) (by rw [c.shapeAt, hb])
        (fun l hl hl' => hap l ((hp _ _).1 hl) ((hp _ _).1 hl')) ?_ ?_ ?_ ?_ ?_ ?_ ?_ ?_ hrun
      · rw [c.props, c.props]; exact hclosed
      · rw [c.patProps]; exact hno
      · rw [c.props, c.props, c.patProps]; exact hnew
      · rw [c.props]; exact hnd
      · rw [c.pmaps]; exact hptr
      · rw [c.props, c.props]
        intro k tp sp htp hsp
        refine (hm k tp sp htp hsp).transport (c.agree _) (fun x hx hv _ => ?_)
        have hxb : x ≠ b := by rintro rfl; exact (hsep k tp sp htp hsp).2.2 hx
        rw [hvis, if_neg hxb]; exact hv
      · rw [c.props, c.props]
        intro k tp sp htp hsp
        refine ⟨?_, fun i hi => ?_⟩
        · rw [hp]; exact (hsep k tp sp htp hsp).1
        · rw [hp]; exact (hsep k tp sp htp hsp).2.1 i hi
      · rw [c.props, c.props]
        intro k k' tp tp' hk h1 h2 hq hq' l hl hl'
        exact hdis k k' tp tp' hk h1 h2 hq hq' l ((hp _ _).1 hl) ((hp _ _).1 hl')

end GoRaml
