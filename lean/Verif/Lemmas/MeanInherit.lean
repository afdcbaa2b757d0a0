import Verif.Lemmas.Mean
import Verif.Lemmas.NarrowObject

/-!
# What the types of a straight model mean: one type takes up another
-/

namespace GoRaml.Mean

open GoRaml GoRaml.Spec GoRaml.Kin

variable {s0 s s' : St}

/-- What a type keeps when its shape is replaced. -/
structure SameBase (b b' : Base) : Prop where
  unwrapped : b'.unwrapped = b.unwrapped
  visited : b'.visited = b.visited
  facetDefs : b'.facetDefs = b.facetDefs

/-- Only the types `a` and `V` are changed, only some maps of properties and only some of pattern properties. -/
structure Only (U W : Nat → Prop) (V : Addr → Prop) (a : Addr) (s s' : St) : Prop where
  others : ∀ x, x ≠ a → ¬ V x → s'.base x = s.base x
  vary : ∀ x, x ≠ a → ∀ b, s.base x = some b → ∃ b', s'.base x = some b' ∧ SameBase b b'
  back : ∀ x, x ≠ a → ∀ b', s'.base x = some b' → ∃ b, s.base x = some b
  len : s'.bases.length = s.bases.length
  pmaps : ∀ i, ¬ U i → s'.pmaps[i]? = s.pmaps[i]?
  ppmaps : ∀ i, ¬ W i → s'.ppmaps[i]? = s.ppmaps[i]?
  slices : s'.slices = s.slices
  dts : s'.dts = s.dts

variable {U W : Nat → Prop} {V : Addr → Prop} {a t : Addr}

theorem Only.refl : Only U W V a s s :=
  ⟨fun _ _ _ => rfl, fun _ _ b h => ⟨b, h, rfl, rfl, rfl⟩, fun _ _ b h => ⟨b, h⟩, rfl, fun _ _ => rfl, fun _ _ => rfl, rfl, rfl⟩

theorem Only.trans {s'' : St} (h : Only U W V a s s') (k : Only U W V a s' s'') : Only U W V a s s'' :=
  ⟨fun x hx hv => (k.others x hx hv).trans (h.others x hx hv), fun x hx b hb => by
     obtain ⟨b', h1, h2⟩ := h.vary x hx b hb
     obtain ⟨b'', h3, h4⟩ := k.vary x hx b' h1
     exact ⟨b'', h3, h4.unwrapped.trans h2.unwrapped, h4.visited.trans h2.visited, h4.facetDefs.trans h2.facetDefs⟩,
   fun x hx b hb => by obtain ⟨b', h'⟩ := k.back x hx b hb; exact h.back x hx b' h',
   k.len.trans h.len, fun i hi => (k.pmaps i hi).trans (h.pmaps i hi),
   fun i hi => (k.ppmaps i hi).trans (h.ppmaps i hi), k.slices.trans h.slices, k.dts.trans h.dts⟩

theorem Only.touch (h : Touch a s s') : Only U W V a s s' :=
  ⟨fun x hx _ => h.others x hx, fun x hx b hb => ⟨b, (h.others x hx).trans hb, rfl, rfl, rfl⟩, fun x hx b hb => ⟨b, (h.others x hx).symm.trans hb⟩,
   h.len, fun _ _ => by rw [h.pmaps], fun _ _ => by rw [h.ppmaps], h.slices, h.dts⟩

theorem Only.mono {U' W' : Nat → Prop} {V' : Addr → Prop} (h : Only U W V a s s') (hm : ∀ i, U i → U' i) (hn : ∀ i, W i → W' i) (hv : ∀ x, V x → V' x) :
    Only U' W' V' a s s' :=
  ⟨fun x hx k => h.others x hx fun j => k (hv x j), h.vary, h.back, h.len, fun i hi => h.pmaps i fun k => hi (hm i k), fun i hi => h.ppmaps i fun k => hi (hn i k), h.slices, h.dts⟩

theorem shapeAt_of {b : Base} {q : Shape} (h : s.base a = some b) (hq : b.shape = some q) : s.shapeAt a = some q := by simp [St.shapeAt, h, hq]

theorem objectAt_of {b : Base} {f : ObjectF} (h : s.base a = some b) (hq : b.shape = some (.object f)) : objectAt s a = f := by
  simp [objectAt, shapeAt_of h hq]

theorem arrayAt_of {b : Base} {f : ArrayF} (h : s.base a = some b) (hq : b.shape = some (.array f)) : arrayAt s a = f := by
  simp [arrayAt, shapeAt_of h hq]

/-! ## Objects -/

/-- The scalar type `x` can take up the scalar type `y`. -/
def Ready (s : St) (x y : Addr) : Prop :=
  ∃ bx cy t u, s.base x = some bx ∧ s.base y = some cy ∧ bx.shape = some t ∧ cy.shape = some u ∧ cy.visited = false ∧ Restricting t ∧ Plain u

/-- The scalar type `x` has taken up the scalar type `y`. -/
def Taken (s s' : St) (x y : Addr) : Prop :=
  ∃ bx b' t u sh, s.base x = some bx ∧ bx.shape = some t ∧ s.shapeAt y = some u ∧ leafInherit t u = .ok sh ∧ s'.base x = some b' ∧ b'.shape = some sh ∧ SameBase bx b'

theorem restricting_target {q : Shape} (h : Restricting q) : IsScalarTarget q := by
  cases q <;> first | exact h.elim | trivial

theorem merged_absent {m qs : OMap Property} {k : String} {q : Property} (hk : ∀ p ∈ m, p.1 ≠ k) (hn : ((k, q) :: qs |>.map (·.1)).Nodup) :
    mergedProps (m ++ [(k, q)]) qs = mergedProps m ((k, q) :: qs) := by
  simp only [List.map_cons, List.nodup_cons] at hn
  unfold mergedProps
  rw [List.filter_cons_of_pos (by simpa using fun a b h => hk (a, b) h), List.append_assoc]
  congr 1
  rw [List.singleton_append]
  congr 1
  refine List.filter_congr fun e he => ?_
  rw [List.all_append]
  have : (k : String) ≠ e.1 := fun h => hn.1 (List.mem_map.2 ⟨e, he, h.symm⟩)
  simp [this]

theorem merged_present {m qs : OMap Property} {k : String} {p q : Property} (hp : (k, p) ∈ m) : mergedProps m ((k, q) :: qs) = mergedProps m qs := by
  unfold mergedProps
  rw [List.filter_cons_of_neg]
  simp only [List.all_eq_true, decide_eq_true_eq]
  exact fun h => h _ hp rfl

theorem props_loop {n : Nat} {i : Nat} : ∀ (qs : OMap Property) {s s' : St} {m : OMap Property}, s.pmaps[i]? = some m → (m.map (·.1)).Nodup → (qs.map (·.1)).Nodup →
    (∀ k p q, (k, p) ∈ m → (k, q) ∈ qs → Ready s p.base q.base) →
    (∀ k p q k' p' q', (k, p) ∈ m → (k, q) ∈ qs → (k', p') ∈ m → (k', q') ∈ qs → p.base ≠ q'.base ∧ (p.base = p'.base → k = k')) →
    M.forEach (inheritProp (inherit n) i) qs s = (.ok (), s') →
    s'.pmaps[i]? = some (mergedProps m qs) ∧ (∀ j, j ≠ i → s'.pmaps[j]? = s.pmaps[j]?) ∧ s'.bases.length = s.bases.length ∧ s'.ppmaps = s.ppmaps ∧
      s'.slices = s.slices ∧ s'.dts = s.dts ∧ (∀ x, (∀ k p q, (k, p) ∈ m → (k, q) ∈ qs → p.base ≠ x) → s'.base x = s.base x) ∧
      ∀ k p q, (k, p) ∈ m → (k, q) ∈ qs → (q.required = true → p.required = true) ∧ Taken s s' p.base q.base
  | [], s, s', m, hm, _, _, _, _, hr => by
    obtain ⟨_, rfl⟩ := M.ret_ok.1 hr
    exact ⟨by simpa [mergedProps] using hm, fun _ _ => rfl, rfl, rfl, rfl, rfl, fun _ _ => rfl, fun _ _ _ _ h => by cases h⟩
  | (k, q) :: qs, s, s', m, hm, hnm, hn, hready, hap, hr => by
    obtain ⟨_, s1, hr1, hr2⟩ := M.bind_ok.1 hr
    unfold inheritProp at hr1
    rw [M.get_bind] at hr1
    have hp : s.props (some i) = m := by simp [St.props, hm]
    have hn' := hn
    simp only [List.map_cons, List.nodup_cons] at hn'
    cases hg : OMap.get m k with
    | none =>
      have habs := (OMap.get_none_iff m k).1 hg
      simp only [hp, hg] at hr1
      cases hr1
      have h1 : ({ s with pmaps := s.pmaps.modify i fun m => OMap.set m k q } : St).pmaps[i]? = some (m ++ [(k, q)]) := by
        simp only [List.getElem?_modify, hm]
        simp [OMap.set_append m k q hg]
      have old : ∀ {k' : String} {p' q' : Property}, (k', p') ∈ m ++ [(k, q)] → (k', q') ∈ qs → (k', p') ∈ m := fun {k' p' q'} h1 h2 => by
        rcases List.mem_append.1 h1 with h | h
        · exact h
        · have := List.mem_singleton.1 h
          cases this
          exact absurd (List.mem_map.2 ⟨(k, q'), h2, rfl⟩) hn'.1
      obtain ⟨e1, e2, e3, e4, e5, e6, e7, e8⟩ := props_loop qs h1 (by
          rw [List.map_append]
          refine List.nodup_append.2 ⟨hnm, by simp, fun x hx y hy e => ?_⟩
          obtain ⟨z, hz, rfl⟩ := List.mem_map.1 hx
          rw [List.map_singleton, List.mem_singleton] at hy
          exact habs z hz (e.trans hy)) hn'.2
        (fun k' p' q' h2 h3 => hready k' p' q' (old h2 h3) (by simp [h3]))
        (fun k1 p1 q1 k2 p2 q2 j1 j2 j3 j4 => hap k1 p1 q1 k2 p2 q2 (old j1 j2) (by simp [j2]) (old j3 j4) (by simp [j4])) hr2
      refine ⟨by rw [e1, merged_absent habs hn], fun j hj => ?_, e3, e4, e5, e6, fun x hx => e7 x fun k' p' q' h2 h3 => hx k' p' q' (old h2 h3) (by simp [h3]), fun k' p' q' h2 h3 => ?_⟩
      · rw [e2 j hj]
        simp only [List.getElem?_modify]
        have : ¬ i = j := fun e => hj e.symm
        cases s.pmaps[j]? <;> simp [this]
      · rcases List.mem_cons.1 h3 with h | h
        · cases h
          exact absurd rfl (habs _ h2)
        · exact e8 k' p' q' (List.mem_append_left _ h2) h
    | some p =>
      have hpm : (k, p) ∈ m := ((OMap.get_some_iff m k p).1 hg).mem
      simp only [hp, hg] at hr1
      by_cases hreq : (q.required && !p.required) = true
      · rw [if_pos hreq] at hr1; cases hr1
      rw [if_neg hreq] at hr1
      replace hr1 := M.bind_ok.1 hr1
      obtain ⟨r, s2, hr1, hr3⟩ := hr1
      cases hr3
      obtain ⟨bx, cy, tx, uy, r1, r2, r3, r4, r5, r6, r7⟩ := hready k p q hpm (by simp)
      have hne := (hap k p q k p q hpm (by simp) hpm (by simp)).1
      obtain ⟨_, tch, sh, b', j1, j2, j3, j4, j5, j6⟩ := inherit_exact hne r1 r2 r3 r4 r5 (restricting_target r6) r7 hr1
      have other : ∀ {k' : String} {p' q' : Property}, (k', p') ∈ m → (k', q') ∈ qs → p'.base ≠ p.base ∧ q'.base ≠ p.base := fun {k' p' q'} h1 h2 => by
        refine ⟨fun e => ?_, fun e => (hap k p q k' p' q' hpm (by simp) h1 (by simp [h2])).1 e.symm⟩
        have := (hap k' p' q' k p q h1 (by simp [h2]) hpm (by simp)).2 e
        subst this
        exact hn'.1 (List.mem_map.2 ⟨_, h2, rfl⟩)
      obtain ⟨e1, e2, e3, e4, e5, e6, e7, e8⟩ := props_loop qs (s := s1) (by rw [tch.pmaps]; exact hm) hnm hn'.2 (fun k' p' q' h1 h2 => by
          obtain ⟨bx, cy, tx, uy, z1, z2, z3⟩ := hready k' p' q' h1 (by simp [h2])
          exact ⟨bx, cy, tx, uy, (tch.others _ (other h1 h2).1).trans z1, (tch.others _ (other h1 h2).2).trans z2, z3⟩)
        (fun k1 p1 q1 k2 p2 q2 i1 i2 i3 i4 => hap k1 p1 q1 k2 p2 q2 i1 (by simp [i2]) i3 (by simp [i4])) hr2
      refine ⟨by rw [e1, merged_present hpm], fun j hj => by rw [e2 j hj, tch.pmaps], e3.trans tch.len, e4.trans tch.ppmaps, e5.trans tch.slices, e6.trans tch.dts,
        fun x hx => ?_, fun k' p' q' h1 h2 => ?_⟩
      · rw [e7 x fun k' p' q' h1 h2 => hx k' p' q' h1 (by simp [h2])]
        exact tch.others x fun e => hx k p q hpm (by simp) e.symm
      · rcases List.mem_cons.1 h2 with h | h
        · cases h
          rw [mem_pair hnm h1 hpm]
          refine ⟨fun hq => by cases hpr : p.required <;> simp_all, bx, b', tx, uy, sh, r1, r3, by simp [St.shapeAt, r2, r4], j1, ?_, j3, j4, j5, j6⟩
          rw [e7 _ fun k'' p'' q'' i1 i2 => (other i1 i2).1]
          exact j2
        · obtain ⟨z0, bx', b'', t', u', sh', z1, z2, z3, z4, z5⟩ := e8 k' p' q' h1 h
          refine ⟨z0, bx', b'', t', u', sh', (tch.others _ (other h1 h).1).symm.trans z1, z2, ?_, z4, z5⟩
          rw [← z3]
          simp [St.shapeAt, tch.others _ (other h1 h).2]

theorem pats_loop_adds {rec : Addr → Addr → M St Addr} {i : Nat} : ∀ (qs : OMap PatternProperty) {s s' : St} {m : OMap PatternProperty}, s.ppmaps[i]? = some m →
    (∀ p ∈ m, ∀ q ∈ qs, p.1 ≠ q.1) → (qs.map (·.1)).Nodup → M.forEach (inheritPatProp rec i) qs s = (.ok (), s') →
    s' = { s with ppmaps := s'.ppmaps } ∧ s'.ppmaps[i]? = some (m ++ qs) ∧ ∀ j, j ≠ i → s'.ppmaps[j]? = s.ppmaps[j]?
  | [], s, s', m, hm, _, _, hr => by
    obtain ⟨_, rfl⟩ := M.ret_ok.1 hr
    exact ⟨rfl, by rw [hm, List.append_nil], fun _ _ => rfl⟩
  | (k, q) :: qs, s, s', m, hm, hd, hn, hr => by
    obtain ⟨_, s1, hr1, hr2⟩ := M.bind_ok.1 hr
    unfold inheritPatProp at hr1
    rw [M.get_bind] at hr1
    have hp : s.patProps (some i) = m := by simp [St.patProps, hm]
    have hg : OMap.get m k = none := (OMap.get_none_iff m k).2 fun p hp => hd p hp (k, q) (by simp)
    simp only [hp, hg] at hr1
    cases hr1
    have h1 : ({ s with ppmaps := s.ppmaps.modify i fun m => OMap.set m k q } : St).ppmaps[i]? = some (m ++ [(k, q)]) := by
      simp only [List.getElem?_modify, hm]
      simp [OMap.set_append m k q hg]
    simp only [List.map_cons, List.nodup_cons] at hn
    obtain ⟨e1, e2, e3⟩ := pats_loop_adds qs h1 (fun p hp r hr => by
      rcases List.mem_append.1 hp with hp | hp
      · exact hd p hp r (by simp [hr])
      · rw [List.mem_singleton.1 hp]
        exact fun e => hn.1 (List.mem_map.2 ⟨r, hr, e.symm⟩)) hn.2 hr2
    refine ⟨e1.trans (by simp), by rw [e2]; simp, fun j hj => ?_⟩
    rw [e3 j hj]
    simp only [List.getElem?_modify]
    have : ¬ i = j := fun e => hj e.symm
    cases s.ppmaps[j]? <;> simp [this]

theorem setObject_touch {b : Base} {f f' : ObjectF} (hb : s.base a = some b) (hf : b.shape = some (.object f)) :
    ∃ s1, setObject a f' s = (.ok (), s1) ∧ Touch a s s1 ∧ s1.base a = some { b with shape := some (.object f') } :=
  ⟨_, rfl, Touch.upd a _ s, by rw [base_upd_self hb]; simp [hf]⟩

theorem setArray_touch {b : Base} {f f' : ArrayF} (hb : s.base a = some b) (hf : b.shape = some (.array f)) :
    ∃ s1, setArray a f' s = (.ok (), s1) ∧ Touch a s s1 ∧ s1.base a = some { b with shape := some (.array f') } :=
  ⟨_, rfl, Touch.upd a _ s, by rw [base_upd_self hb]; simp [hf]⟩

theorem props_taken {n : Nat} {b c : Base} {f g : ObjectF} (hb : s.base a = some b) (hf : b.shape = some (.object f)) (hc : s.base t = some c)
    (hg : c.shape = some (.object g)) (hp : ∀ i, f.properties = some i → ∃ m, s.pmaps[i]? = some m)
    (hnf : ((s.props f.properties).map (·.1)).Nodup) (hn : ((s.props g.properties).map (·.1)).Nodup)
    (hready : ∀ k p q, (k, p) ∈ s.props f.properties → (k, q) ∈ s.props g.properties → Ready s p.base q.base)
    (hap : ∀ k p q k' p' q', (k, p) ∈ s.props f.properties → (k, q) ∈ s.props g.properties → (k', p') ∈ s.props f.properties → (k', q') ∈ s.props g.properties →
      p.base ≠ q'.base ∧ (p.base = p'.base → k = k'))
    (hr : inheritProperties (inherit n) a t s = (.ok (), s')) :
    ∃ p, Only (fun i => f.properties = some i) (fun _ => False) (fun x => ∃ k p q, (k, p) ∈ s.props f.properties ∧ (k, q) ∈ s.props g.properties ∧ p.base = x) a s s' ∧
      s'.base a = some { b with shape := some (.object { f with properties := p }) } ∧
      s'.props p = mergedProps (s.props f.properties) (s.props g.properties) ∧ (p = f.properties ∨ p = g.properties) ∧
      ∀ k p q, (k, p) ∈ s.props f.properties → (k, q) ∈ s.props g.properties → (q.required = true → p.required = true) ∧ Taken s s' p.base q.base := by
  unfold inheritProperties at hr
  rw [M.get_bind] at hr
  simp only [objectAt_of hb hf, objectAt_of hc hg] at hr
  cases h1 : f.properties with
  | none =>
    simp only [h1] at hr
    obtain ⟨s1, e1, e2, e3⟩ := setObject_touch (f' := { f with properties := g.properties }) hb hf
    rw [e1] at hr
    cases hr
    exact ⟨g.properties, .touch e2, e3, by simp [St.props, e2.pmaps, mergedProps], .inr rfl, fun k p q h => by cases h⟩
  | some i =>
    cases h2 : g.properties with
    | none =>
      simp only [h1, h2] at hr
      obtain ⟨_, rfl⟩ := M.ret_ok.1 hr
      exact ⟨some i, .refl, by rw [hb, ← h1, ← hf], by simp [St.props, mergedProps], .inl rfl, fun k p q _ h => by cases h⟩
    | some j =>
      simp only [h1, h2] at hr
      obtain ⟨m, hm⟩ := hp i h1
      have hpm : s.props (some i) = m := by simp [St.props, hm]
      rw [h1, hpm] at hnf hready hap
      rw [h2] at hn hready hap
      rw [hpm]
      obtain ⟨e1, e2, e3, e4, e5, e6, e7, e8⟩ := props_loop _ hm hnf hn hready hap hr
      refine ⟨some i, ⟨fun x _ hx => e7 x fun k p q h1 h2 e => hx ⟨k, p, q, h1, h2, e⟩, fun x _ b hb => ?_, fun x _ b' hb' => ?_, e3, fun j hj => e2 j fun e => hj (by rw [e]),
        fun _ _ => by rw [e4], e5, e6⟩, ?_, by simp [St.props, e1], .inl rfl, e8⟩
      · by_cases hx : ∃ k p q, (k, p) ∈ m ∧ (k, q) ∈ s.props (some j) ∧ p.base = x
        · obtain ⟨k, p, q, i1, i2, rfl⟩ := hx
          obtain ⟨_, bx, b', _, _, _, z1, _, _, _, z2, _, z3⟩ := e8 k p q i1 i2
          rw [hb] at z1
          cases z1
          exact ⟨b', z2, z3⟩
        · exact ⟨b, (e7 x fun k p q h1 h2 e => hx ⟨k, p, q, h1, h2, e⟩).trans hb, rfl, rfl, rfl⟩
      · have : x < s'.bases.length := (List.getElem?_eq_some_iff.1 hb').1
        rw [e3] at this
        exact ⟨s.bases[x], List.getElem?_eq_getElem this⟩
      · rw [e7 a fun k p q i1 i2 e => ?_]
        · rw [hb, ← h1, ← hf]
        · obtain ⟨bx, _, tx, _, z1, _, z2, _, _, z3, _⟩ := hready k p q i1 i2
          rw [e, hb] at z1
          cases z1
          rw [hf] at z2
          cases z2
          exact z3

theorem pats_taken {rec : Addr → Addr → M St Addr} {b c : Base} {f g : ObjectF} (hb : s.base a = some b) (hf : b.shape = some (.object f)) (hc : s.base t = some c)
    (hg : c.shape = some (.object g)) (hp : ∀ i, f.patternProperties = some i → ∃ m, s.ppmaps[i]? = some m)
    (hd : ∀ p ∈ s.patProps f.patternProperties, ∀ q ∈ s.patProps g.patternProperties, p.1 ≠ q.1) (hn : ((s.patProps g.patternProperties).map (·.1)).Nodup)
    (hr : inheritPatternProperties rec a t s = (.ok (), s')) :
    ∃ p, Only (fun _ => False) (fun i => f.patternProperties = some i) (fun _ => False) a s s' ∧
      s'.base a = some { b with shape := some (.object { f with patternProperties := p }) } ∧
      s'.patProps p = s.patProps f.patternProperties ++ s.patProps g.patternProperties ∧ (p = f.patternProperties ∨ p = g.patternProperties) := by
  unfold inheritPatternProperties at hr
  rw [M.get_bind] at hr
  simp only [objectAt_of hb hf, objectAt_of hc hg] at hr
  cases h1 : f.patternProperties with
  | none =>
    simp only [h1] at hr
    obtain ⟨s1, e1, e2, e3⟩ := setObject_touch (f' := { f with patternProperties := g.patternProperties }) hb hf
    rw [e1] at hr
    cases hr
    exact ⟨g.patternProperties, .touch e2, e3, by simp [St.patProps, e2.ppmaps], .inr rfl⟩
  | some i =>
    cases h2 : g.patternProperties with
    | none =>
      simp only [h1, h2] at hr
      obtain ⟨_, rfl⟩ := M.ret_ok.1 hr
      exact ⟨some i, .refl, by rw [hb, ← h1, ← hf], by simp [St.patProps], .inl rfl⟩
    | some j =>
      simp only [h1, h2] at hr
      obtain ⟨m, hm⟩ := hp i h1
      have hpm : s.patProps f.patternProperties = m := by simp [St.patProps, h1, hm]
      rw [hpm, h2] at hd
      rw [h2] at hn
      obtain ⟨e1, e2, e3⟩ := pats_loop_adds _ hm hd hn hr
      have same : ∀ x, s'.base x = s.base x := fun x => by rw [e1]; rfl
      refine ⟨some i, ⟨fun x _ _ => same x, fun x _ b hb => ⟨b, (same x).trans hb, rfl, rfl, rfl⟩, fun x _ b hb => ⟨b, (same x).symm.trans hb⟩, by rw [e1],
        fun _ _ => by rw [e1], fun j hj => e3 j fun e => hj (by rw [e]), by rw [e1], by rw [e1]⟩, ?_, ?_, .inl rfl⟩
      · rw [e1]
        show s.base a = _
        rw [hb, ← h1, ← hf]
      · rw [← h1, hpm]
        simp [St.patProps, h1, e2]

theorem nodup_flatMap {α β : Type} {g : α → OMap β} : ∀ {l : List α}, l.Pairwise (fun c c' => ∀ e ∈ g c, ∀ e' ∈ g c', e.1 ≠ e'.1) →
    (∀ c ∈ l, ((g c).map (·.1)).Nodup) → ((l.flatMap g).map (·.1)).Nodup
  | [], _, _ => by simp
  | c :: l, hp, hn => by
    rw [List.flatMap_cons, List.map_append]
    refine List.nodup_append.2 ⟨hn c (by simp), nodup_flatMap (List.pairwise_cons.1 hp).2 fun c' h => hn c' (by simp [h]), fun k h1 k' h2 e => ?_⟩
    obtain ⟨x, hx, rfl⟩ := List.mem_map.1 h1
    obtain ⟨y, hy, rfl⟩ := List.mem_map.1 h2
    obtain ⟨c', hc', hy⟩ := List.mem_flatMap.1 hy
    exact (List.pairwise_cons.1 hp).1 c' hc' x hx y hy e

theorem Setup.patsNames (S : Setup s0) (p : Option Nat) : ((s0.patProps p).map (·.1)).Nodup := by
  cases p with
  | none => simp [St.patProps]
  | some i =>
    cases h : s0.ppmaps[i]? with
    | none => simp [St.patProps, h]
    | some m => simpa [St.patProps, h] using S.patNames m (List.mem_of_getElem? h)

theorem object_eq {r : Shape} {c : Addr} (h : s0.shapeAt c = some r) (hk : Kind r = "object") : s0.shapeAt c = some (.object (objectAt s0 c)) := by
  obtain ⟨f, rfl⟩ := kind_object hk
  simp [objectAt, h]

theorem array_eq {r : Shape} {c : Addr} (h : s0.shapeAt c = some r) (hk : Kind r = "array") : s0.shapeAt c = some (.array (arrayAt s0 c)) := by
  obtain ⟨f, rfl⟩ := kind_array hk
  simp [arrayAt, h]

theorem line_below {x : Addr} {l : List Addr} (hl : Line s0 x l) : ∀ c ∈ l, ∃ l', Line s0 c l' ∧ l'.length ≤ l.length := by
  induction hl with
  | root h1 h2 h3 h4 => exact fun c hc => by rw [List.mem_singleton.1 hc]; exact ⟨_, .root h1 h2 h3 h4, Nat.le_refl _⟩
  | «alias» h1 h2 _ ih => exact ih
  | on h1 h2 h3 h4 ih =>
    intro c hc
    rcases List.mem_cons.1 hc with rfl | hc
    · exact ⟨_, .on h1 h2 h3 h4, Nat.le_refl _⟩
    · obtain ⟨l', k1, k2⟩ := ih c hc
      exact ⟨l', k1, Nat.le_succ_of_le k2⟩

theorem line_fresh {x : Addr} {l : List Addr} (hl : Line s0 x (x :: l)) : x ∉ l := fun h => by
  rcases line_tail hl rfl with rfl | ⟨y, hy⟩
  · cases h
  · obtain ⟨l', k1, k2⟩ := line_below hy x h
    cases Line.unique k1 hl
    exact absurd k2 (by simp)

/-- An object type takes up the type it is built on. -/
theorem object_taken (S : Setup s0) {n : Nat} {b c : Base} {f g : ObjectF} {l : List Addr} (hat : a ≠ t) (h0 : s0.shapeAt a = some (.object f))
    (hb : s.base a = some b) (hf : b.shape = some (.object f)) (hc : s.base t = some c) (hg : c.shape = some (.object g))
    (hp : ∀ i, f.properties = some i → s.pmaps[i]? = s0.pmaps[i]?) (hpp : ∀ i, f.patternProperties = some i → s.ppmaps[i]? = s0.ppmaps[i]?)
    (he : ObjEff s0 s l g) (hline : Line s0 a (a :: l)) (hd : (a :: l).Pairwise (Distinct s0)) (hk : ∀ c ∈ l, s0.shapeAt c = some (.object (objectAt s0 c)))
    (hov : ∀ x y, Over s0 a x y → Ready s x y) (hr : inheritObject (inherit n) a t s = (.ok (), s')) :
    ∃ f', Only (fun i => f.properties = some i) (fun i => f.patternProperties = some i) (fun x => ∃ y, Over s0 a x y) a s s' ∧
      s'.base a = some { b with shape := some (.object f') } ∧ ObjEff s0 s' (a :: l) f' ∧ ∀ x y, Over s0 a x y → Taken s s' x y := by
  have ho : objectAt s0 a = f := by simp [objectAt, h0]
  have hpa : propsAt s0 a = s0.props f.properties := by rw [propsAt, ho]
  have hp0 : s.props f.properties = s0.props f.properties := by
    cases h : f.properties with
    | none => rfl
    | some i => simp [St.props, hp i h]
  have hpp0 : s.patProps f.patternProperties = s0.patProps f.patternProperties := by
    cases h : f.patternProperties with
    | none => rfl
    | some i => simp [St.patProps, hpp i h]
  have hov1 : ∀ x y, Over s0 a x y → x ≠ a ∧ y ≠ a := fun x y h => by
    obtain ⟨bx, cy, tx, uy, z1, z2, z3, z4, _, z5, z6⟩ := hov x y h
    constructor <;> rintro rfl
    · rw [hb] at z1
      cases z1
      rw [hf] at z3
      cases z3
      exact z5
    · rw [hb] at z2
      cases z2
      rw [hf] at z4
      cases z4
      exact z6.1
  unfold inheritObject at hr
  rw [M.get_bind] at hr
  obtain ⟨f1, s1, hL, hr⟩ := M.bind_ok.1 hr
  obtain ⟨h1, e0⟩ := M.lift_ok.1 hL
  subst e0
  clear hL
  rw [objectAt_of hb hf, objectAt_of hc hg] at h1
  have own : f1.properties = f.properties ∧ f1.patternProperties = f.patternProperties ∧
      (∀ k, Between (· ≤ ·) f1.minProperties f1.maxProperties k ↔ Between (· ≤ ·) f.minProperties f.maxProperties k ∧ Between (· ≤ ·) g.minProperties g.maxProperties k) ∧
      f1.additionalProperties = match f.additionalProperties with | none => g.additionalProperties | some b => some b := by
    unfold ObjectF.inheritOwn at h1
    obtain ⟨lo, e1, h1⟩ := Out.bind_ok.1 h1
    obtain ⟨hi, e2, h1⟩ := Out.bind_ok.1 h1
    cases h1
    exact ⟨rfl, rfl, fun k => between_inherit natLt (· ≤ ·) (by simp [natLt]) e1 e2 k (fun a b _ _ => natLt_law k a b) (fun a b _ _ => natLt_law' k a b), rfl⟩
  obtain ⟨o1, o2, o3, o4⟩ := own
  obtain ⟨_, s2, h2, hr⟩ := M.bind_ok.1 hr
  obtain ⟨s2', e2, t2, b2⟩ := setObject_touch (f' := f1) hb hf
  rw [e2] at h2
  cases h2
  obtain ⟨_, s3, h3, h4⟩ := M.bind_ok.1 hr
  have c2 := (t2.others t hat.symm).trans hc
  have q2 : ∀ p, s2.props p = s.props p := fun p => by cases p <;> simp [St.props, t2.pmaps]
  have r2 : ∀ p, s2.patProps p = s.patProps p := fun p => by cases p <;> simp [St.patProps, t2.ppmaps]
  have hover : ∀ {k p q}, (k, p) ∈ s2.props f1.properties → (k, q) ∈ s2.props g.properties → Over s0 a p.base q.base := fun {k p q} i1 i2 => by
    rw [q2, o1, hp0, ← hpa] at i1
    rw [q2, he.props] at i2
    exact ⟨l, k, p, q, hline, i1, i2, rfl, rfl⟩
  obtain ⟨p, k3, b3, d3, p3, tk3⟩ := props_taken b2 rfl c2 hg (fun i hi => by
      obtain ⟨m, hm⟩ := S.props a f i h0 (o1 ▸ hi)
      exact ⟨m, by rw [t2.pmaps, hp i (o1 ▸ hi), hm]⟩) (by rw [q2, o1, hp0]; exact S.propsNames _) (by rw [q2, he.props]; exact S.lineNames l)
      (fun k p q i1 i2 => by
        have hox := hover i1 i2
        obtain ⟨bx, cy, tx, uy, z1, z2, z3⟩ := hov _ _ hox
        exact ⟨bx, cy, tx, uy, (t2.others _ (hov1 _ _ hox).1).trans z1, (t2.others _ (hov1 _ _ hox).2).trans z2, z3⟩)
      (fun k p q k' p' q' i1 i2 i3 i4 => by
        rw [q2, o1, hp0, ← hpa] at i1 i3
        rw [q2, he.props] at i4
        refine ⟨fun e => ?_, fun e => (S.owner i1 i3 e).2.1⟩
        obtain ⟨c', hc', i4⟩ := mem_mergedLine i4
        obtain ⟨rfl, _⟩ := S.owner i1 i4 e
        exact line_fresh hline hc') h3
  have nt : ∀ y, ¬ Over s0 a t y := fun y h => by
    obtain ⟨bx, cy, tx, uy, z1, z2, z3, z4, _, z5, z6⟩ := hov t y h
    rw [hc] at z1
    cases z1
    rw [hg] at z3
    cases z3
    exact z5
  have k3 := k3.mono (V' := fun x => ∃ y, Over s0 a x y) (fun i h => h) (fun i h => h) fun x ⟨k, p, q, i1, i2, e⟩ => ⟨_, e ▸ hover i1 i2⟩
  have c3 := (k3.others t hat.symm fun ⟨y, h⟩ => nt y h).trans c2
  have r3 : ∀ p, s3.patProps p = s.patProps p := fun p => by
    rw [← r2]
    cases p with
    | none => rfl
    | some i => simp [St.patProps, k3.ppmaps i fun h => h]
  obtain ⟨pp, k4, b4, d4, p4⟩ := pats_taken b3 rfl c3 hg (fun i hi => by
      obtain ⟨m, hm⟩ := S.pats a f i h0 (o2 ▸ hi)
      exact ⟨m, by rw [k3.ppmaps i fun h => h, t2.ppmaps, hpp i (o2 ▸ hi), hm]⟩) (fun x hx y hy => by
      rw [r3, o2, hpp0] at hx
      rw [r3, he.pats] at hy
      obtain ⟨c', hc', hy⟩ := List.mem_flatMap.1 hy
      exact ((List.pairwise_cons.1 hd).1 c' hc').patterns f _ h0 (hk c' hc') x hx y hy) (by
      rw [r3, he.pats]
      refine nodup_flatMap ?_ fun c' _ => S.patsNames _
      exact (List.pairwise_cons.1 hd).2.imp_of_mem fun {c1 c2} h1 h2 hd x hx y hy => hd.patterns _ _ (hk c1 h1) (hk c2 h2) x hx y hy) h4
  have tk : ∀ k x y, (k, x) ∈ propsAt s0 a → (k, y) ∈ mergedLine s0 l → (y.required = true → x.required = true) ∧ Taken s s' x.base y.base := fun k x y i1 i2 => by
    have hox : Over s0 a x.base y.base := ⟨l, k, x, y, hline, i1, i2, rfl, rfl⟩
    rw [hpa, ← hp0, ← o1, ← q2] at i1
    rw [← he.props, ← q2] at i2
    obtain ⟨z0, bx, b', tx, uy, sh, z1, z2, z3, z4, z5, z6⟩ := tk3 k x y i1 i2
    refine ⟨z0, bx, b', tx, uy, sh, (t2.others _ (hov1 _ _ hox).1).symm.trans z1, z2, ?_, z4, (k4.others _ (hov1 _ _ hox).1 fun h => h).trans z5, z6⟩
    rw [← z3]
    simp [St.shapeAt, t2.others _ (hov1 _ _ hox).2]
  refine ⟨_, (Only.touch t2).trans ((k3.mono (fun i h => o1 ▸ h) (fun _ h => h.elim) fun _ h => h).trans (k4.mono (fun _ h => h.elim) (fun i h => o2 ▸ h) fun _ h => h.elim)), b4,
    ⟨?_, ?_, ?_, ?_, ?_, ?_, ?_⟩, fun x y ⟨l', k, p, q, i1, i2, i3, i4, i5⟩ => ?_⟩
  · intro k
    simp only [List.mem_cons, forall_eq_or_imp, ho]
    rw [o3, he.bounds]
  · show s'.props p = _
    have : s'.props p = s3.props p := by
      cases p with
      | none => rfl
      | some i => simp [St.props, k4.pmaps i fun h => h]
    rw [this, d3, q2, q2, o1, hp0, he.props, ← hpa]
    rfl
  · intro c' hc' q hq hreq
    rcases List.mem_cons.1 hc' with rfl | hc'
    · exact ⟨q, mem_merged.2 (.inl hq), rfl, hreq⟩
    · obtain ⟨⟨k, r⟩, i1, i2, i3⟩ := he.req c' hc' q hq hreq
      by_cases hown : ∃ e ∈ propsAt s0 a, e.1 = k
      · obtain ⟨⟨_, e⟩, j1, rfl⟩ := hown
        exact ⟨_, mem_merged.2 (.inl j1), i2, (tk _ _ _ j1 i1).1 i3⟩
      · exact ⟨(k, r), mem_merged.2 (.inr ⟨i1, fun e j1 j2 => hown ⟨e, j1, j2⟩⟩), i2, i3⟩
  · show s'.patProps pp = _
    rw [d4, r3, r3, show ({ f1 with properties := p } : ObjectF).patternProperties = f.patternProperties from o2, hpp0, he.pats, List.flatMap_cons, ho]
  · show f1.additionalProperties = _
    rw [o4, List.findSome?_cons, ho, he.more]
    cases f.additionalProperties <;> rfl
  · intro i (hi : p = some i)
    rcases p3 with h | h
    · exact ⟨a, by simp, by rw [ho, ← o1, ← h, hi]⟩
    · obtain ⟨c', h1, h2⟩ := he.ptr i (by rw [← h, hi])
      exact ⟨c', by simp [h1], h2⟩
  · intro i (hi : pp = some i)
    rcases p4 with h | h
    · exact ⟨a, by simp, by rw [ho, ← o2, ← hi, h]⟩
    · obtain ⟨c', h1, h2⟩ := he.pptr i (by rw [← h, hi])
      exact ⟨c', by simp [h1], h2⟩
  · cases Line.unique i1 hline
    subst i4 i5
    exact (tk k p q i2 i3).2

/-- An array type takes up the type it is built on. -/
theorem array_taken {rec : Addr → Addr → M St Addr} {b c : Base} {f g : ArrayF} {l : List Addr} (hat : a ≠ t) (h0 : s0.shapeAt a = some (.array f))
    (hb : s.base a = some b) (hf : b.shape = some (.array f)) (hc : s.base t = some c) (hg : c.shape = some (.array g))
    (he : ArrEff s0 l g) (hd : (a :: l).Pairwise (Distinct s0)) (hk : ∀ c ∈ l, s0.shapeAt c = some (.array (arrayAt s0 c)))
    (hr : inheritArray rec a t s = (.ok (), s')) :
    ∃ f', Touch a s s' ∧ s'.base a = some { b with shape := some (.array f') } ∧ ArrEff s0 (a :: l) f' := by
  have ho : arrayAt s0 a = f := by simp [arrayAt, h0]
  unfold inheritArray at hr
  rw [M.get_bind] at hr
  obtain ⟨_, s1, h1, hr⟩ := M.bind_ok.1 hr
  rw [arrayAt_of hb hf, arrayAt_of hc hg] at h1
  have items : ∃ f1, Touch a s s1 ∧ s1.base a = some { b with shape := some (.array f1) } ∧ f1 = { f with items := f1.items } ∧
      f1.items = (a :: l).findSome? fun c => (arrayAt s0 c).items := by
    simp only [List.findSome?_cons, ho, ← he.items]
    cases h2 : f.items with
    | none =>
      simp only [h2] at h1
      obtain ⟨s2, e1, e2, e3⟩ := setArray_touch (f' := { f with items := g.items }) hb hf
      rw [e1] at h1
      cases h1
      exact ⟨_, e2, e3, rfl, rfl⟩
    | some i =>
      cases h3 : g.items with
      | none =>
        simp only [h2, h3] at h1
        obtain ⟨_, rfl⟩ := M.ret_ok.1 h1
        exact ⟨f, .refl _ _, by rw [hb, ← hf], rfl, h2⟩
      | some j =>
        rw [he.items] at h3
        obtain ⟨c', hc', hi⟩ := List.exists_of_findSome?_eq_some h3
        rcases ((List.pairwise_cons.1 hd).1 c' hc').items f _ h0 (hk c' hc') with h | h
        · rw [h2] at h; cases h
        · rw [hi] at h; cases h
  obtain ⟨f1, t1, b1, e1, i1⟩ := items
  rw [M.get_bind] at hr
  obtain ⟨f2, s2, hL, hr⟩ := M.bind_ok.1 hr
  obtain ⟨h2, e0⟩ := M.lift_ok.1 hL
  subst e0
  clear hL
  rw [arrayAt_of b1 rfl, arrayAt_of ((t1.others t hat.symm).trans hc) hg] at h2
  obtain ⟨s3, e3, t3, b3⟩ := setArray_touch (f' := f2) b1 rfl
  rw [e3] at hr
  cases hr
  refine ⟨f2, t1.trans t3, b3, ?_⟩
  unfold ArrayF.inheritBounds at h2
  obtain ⟨lo, e4, h2⟩ := Out.bind_ok.1 h2
  obtain ⟨hi, e5, h2⟩ := Out.bind_ok.1 h2
  have key := fun k => between_inherit natLt (· ≤ ·) (by simp [natLt]) e4 e5 k (fun a b _ _ => natLt_law k a b) (fun a b _ _ => natLt_law' k a b)
  have hm : f1.minItems = f.minItems ∧ f1.maxItems = f.maxItems ∧ f1.uniqueItems = f.uniqueItems := by rw [e1]; exact ⟨rfl, rfl, rfl⟩
  have fin : f2.minItems = lo ∧ f2.maxItems = hi ∧ f2.items = f1.items ∧ (f2.uniqueItems = some true ↔ f.uniqueItems = some true ∨ g.uniqueItems = some true) := by
    rw [hm.2.2] at h2
    rcases hu : f.uniqueItems with _ | _ | _ <;> rcases hv : g.uniqueItems with _ | _ | _ <;> simp only [hu, hv, Out.ok.injEq, reduceCtorEq] at h2 <;> subst h2 <;> simp
  obtain ⟨g1, g2, g3, g4⟩ := fin
  refine ⟨fun k => ?_, g3.trans i1, ?_⟩
  · simp only [List.mem_cons, forall_eq_or_imp, ho]
    rw [g1, g2, key, hm.1, hm.2.1, he.bounds]
  · simp only [List.mem_cons, exists_eq_or_imp, ho]
    rw [g4, he.unique]

theorem kind_leafInherit {p u q : Shape} (h : leafInherit p u = .ok q) : Kind q = Kind p := by
  cases p <;> cases u <;> simp only [leafInherit, reduceCtorEq] at h
  all_goals first
    | (obtain ⟨_, _, h⟩ := Out.bind_ok.1 h; cases h; rfl)
    | (cases h; rfl)
    | (split at h <;> cases h; rfl)

theorem shapeEff_leaf {l : List Addr} {q : Shape} (h : Plain q) : ShapeEff s0 s l q ↔ LeafEff s0 l q := by
  cases q <;> first | exact Iff.rfl | exact h.1.elim

theorem restricting_kind {q u : Shape} (h : Restricting q) (hk : Kind u = Kind q) : Plain u := by
  cases q <;> first | exact h.elim | (cases u <;> simp [Kind] at hk <;> exact ⟨trivial, by simp⟩)

theorem inheritLower_one {α : Type} {lt : α → α → Bool} {x y z : Option α} (h : inheritLower lt x y = .ok z) : z = x ∨ z = y := by
  unfold inheritLower at h
  cases x with
  | none => cases y <;> first | (cases h; exact .inl rfl) | (cases h; exact .inr rfl)
  | some x =>
    cases y with
    | none => cases h; exact .inl rfl
    | some y => 
      simp only at h
      split at h
      · cases h
      · cases h; exact .inl rfl

theorem inheritUpper_one {α : Type} {lt : α → α → Bool} {x y z : Option α} (h : inheritUpper lt x y = .ok z) : z = x ∨ z = y := by
  unfold inheritUpper at h
  cases x with
  | none => cases y <;> first | (cases h; exact .inl rfl) | (cases h; exact .inr rfl)
  | some x =>
    cases y with
    | none => cases h; exact .inl rfl
    | some y => 
      simp only at h
      split at h
      · cases h
      · cases h; exact .inl rfl

theorem restricting_leafInherit {q u r : Shape} (hq : Restricting q) (hu : Restricting u) (h : leafInherit q u = .ok r) : Restricting r := by
  have hk := kind_leafInherit h
  cases q with
  | number f =>
    cases u <;> simp only [leafInherit, reduceCtorEq] at h
    rename_i g
    obtain ⟨n, h1, h2⟩ := Out.bind_ok.1 h
    cases h2
    unfold NumberF.inherit at h1
    obtain ⟨lo, e1, h1⟩ := Out.bind_ok.1 h1
    obtain ⟨hi, e2, h1⟩ := Out.bind_ok.1 h1
    obtain ⟨en, e3, h1⟩ := Out.bind_ok.1 h1
    obtain ⟨fm, e4, h1⟩ := Out.bind_ok.1 h1
    cases h1
    exact ⟨(inheritLower_one e1).elim (fun e => e ▸ hq.1) fun e => e ▸ hu.1, (inheritUpper_one e2).elim (fun e => e ▸ hq.2) fun e => e ▸ hu.2⟩
  | string f => cases r <;> simp [Kind] at hk; trivial
  | integer f => cases r <;> simp [Kind] at hk; trivial
  | boolean f => cases r <;> simp [Kind] at hk; trivial
  | file f => cases r <;> simp [Kind] at hk; trivial
  | nil => cases r <;> simp [Kind] at hk; trivial
  | dateOnly => cases r <;> simp [Kind] at hk; trivial
  | timeOnly => cases r <;> simp [Kind] at hk; trivial
  | datetimeOnly => cases r <;> simp [Kind] at hk; trivial
  | _ => exact hq.elim

theorem LeafEff.restricting {l : List Addr} {q : Shape} (h : LeafEff s0 l q) (hl : ∀ c ∈ l, ∃ sh, s0.shapeAt c = some sh ∧ Restricting sh) : Restricting q := by
  rcases h with ⟨r, rfl, h1⟩ | ⟨_, _, _, h1⟩
  · obtain ⟨sh, h2, h3⟩ := hl r (by simp)
    rw [h1] at h2
    cases h2
    exact h3
  · exact h1 hl

theorem LeafEff.pattern {l : List Addr} {f : StringF} (he : LeafEff s0 l (.string f)) (hp : f.pattern ≠ none) : ∃ c ∈ l, HasPattern s0 c := by
  rcases he with ⟨r, rfl, h1⟩ | ⟨_, _, h1, _⟩
  · exact ⟨r, by simp, f, h1, hp⟩
  · exact h1 f rfl hp

theorem LeafEff.values {l : List Addr} {u : Shape} (he : LeafEff s0 l u) (E : Ext) (v : GoVal) : LeafV E u v ↔ ∀ c ∈ l, ∃ sh, s0.shapeAt c = some sh ∧ LeafV E sh v := by
  rcases he with ⟨r, rfl, h1⟩ | ⟨_, h1, _⟩
  · simp [h1]
  · exact h1 E v

/-- A scalar type takes up another one. -/
theorem leaf_merge {q u q' : Shape} {lx l : List Addr} (hx : LeafEff s0 lx q) (hq : Restricting q) (he : LeafEff s0 l u)
    (hd : ∀ c ∈ lx, ∀ c' ∈ l, ¬ (HasPattern s0 c ∧ HasPattern s0 c')) (h : leafInherit q u = .ok q') : Plain q' ∧ LeafEff s0 (lx ++ l) q' := by
  obtain ⟨k1, k2, k3⟩ := leafInherit_and hq h fun f f' e1 e2 => by
    subst e1 e2
    rcases hf : f.pattern with _ | p
    · exact .inl rfl
    · rcases hf' : f'.pattern with _ | p'
      · exact .inr rfl
      · obtain ⟨c, hc, hp⟩ := hx.pattern (by simp [hf])
        obtain ⟨c', hc', hp'⟩ := he.pattern (by simp [hf'])
        exact absurd ⟨hp, hp'⟩ (hd c hc c' hc')
  refine ⟨k1, .inr ⟨k1, fun E v => ?_, fun f e hp => ?_, fun hl => ?_⟩⟩
  · rw [k2, hx.values, he.values]
    simp only [List.mem_append, or_imp, forall_and]
  · rcases k3 f e hp with ⟨f', e1, e2⟩ | ⟨f', e1, e2⟩
    · subst e1
      obtain ⟨c, hc, hc'⟩ := hx.pattern e2
      exact ⟨c, by simp [hc], hc'⟩
    · subst e1
      obtain ⟨c, hc, hc'⟩ := he.pattern e2
      exact ⟨c, by simp [hc], hc'⟩
  · exact restricting_leafInherit hq (he.restricting fun c hc => hl c (by simp [hc])) h

/-- A scalar type takes up the type it is built on. -/
theorem leaf_taken {q u q' : Shape} {l : List Addr} (h0 : s0.shapeAt a = some q) (hq : Restricting q) (he : LeafEff s0 l u) (hd : (a :: l).Pairwise (Distinct s0))
    (h : leafInherit q u = .ok q') : Plain q' ∧ LeafEff s0 (a :: l) q' :=
  leaf_merge (lx := [a]) (.inl ⟨a, rfl, h0⟩) hq he (fun c hc c' hc' => by rw [List.mem_singleton.1 hc]; exact ((List.pairwise_cons.1 hd).1 c' hc').pattern) h

/-- A type takes up the type it is built on. -/
theorem shape_taken (S : Setup s0) {n : Nat} {b c : Base} {q u : Shape} {l : List Addr} (hat : a ≠ t) (h0 : s0.shapeAt a = some q)
    (hb : s.base a = some b) (hq : b.shape = some q) (hc : s.base t = some c) (hu : c.shape = some u) (hku : Kind u = Kind q) (hh : Heritable q)
    (hp : ∀ i, (objectAt s0 a).properties = some i → s.pmaps[i]? = s0.pmaps[i]?)
    (hpp : ∀ i, (objectAt s0 a).patternProperties = some i → s.ppmaps[i]? = s0.ppmaps[i]?)
    (hm : ∀ v e, q = .union v e → s.slice v = [])
    (he : ShapeEff s0 s l u) (hline : Line s0 a (a :: l)) (hov : ∀ x y, Over s0 a x y → Ready s x y) (hd : (a :: l).Pairwise (Distinct s0)) (hl : l ≠ []) (hk : ∀ c ∈ l, ∃ r, s0.shapeAt c = some r ∧ Kind r = Kind q)
    (hr : inheritShape (inherit n) a t q u s = (.ok (), s')) :
    ∃ q', Only (fun i => (objectAt s0 a).properties = some i) (fun i => (objectAt s0 a).patternProperties = some i) (fun x => ∃ y, Over s0 a x y) a s s' ∧
      s'.base a = some { b with shape := some q' } ∧ Kind q' = Kind q ∧ ShapeEff s0 s' (a :: l) q' ∧ ∀ x y, Over s0 a x y → Taken s s' x y := by
  have none : (∀ f, q ≠ .object f) → ∀ x y, Over s0 a x y → Taken s s' x y := fun hn x y ⟨_, k, p, _, _, h2, _⟩ => by
    obtain ⟨f, h3, _⟩ := props_object h2
    rw [h0] at h3
    cases h3
    exact absurd rfl (hn f)
  by_cases hres : Restricting q
  · have hpu := restricting_kind hres hku
    have hr' : (M.bind (M.lift (leafInherit q u)) fun r => setShape a r) s = (.ok (), s') := by
      rw [← hr]
      cases q <;> first | exact hres.elim | (cases u <;> first | rfl | exact hpu.1.elim | (simp [Kind] at hku))
    obtain ⟨q', s1, h1, h2⟩ := M.bind_ok.1 hr'
    obtain ⟨h1', e1⟩ := M.lift_ok.1 h1
    subst e1
    cases h2
    obtain ⟨k1, k2⟩ := leaf_taken h0 hres ((shapeEff_leaf hpu).1 he) hd h1'
    exact ⟨q', .touch (Touch.upd a _ s), base_upd_self hb, kind_leafInherit h1', (shapeEff_leaf k1).2 k2, none fun f e => by subst e; exact hres⟩
  · cases q with
    | object f =>
      obtain ⟨g, rfl⟩ := kind_object (r := u) hku
      have ho : objectAt s0 a = f := by simp [objectAt, h0]
      rw [ho] at hp hpp ⊢
      obtain ⟨f', k1, k2, k3, k4⟩ := object_taken S hat h0 hb hq hc hu hp hpp he hline hd (fun c hc => by obtain ⟨r, e1, e2⟩ := hk c hc; exact object_eq e1 e2) hov hr
      exact ⟨.object f', k1, k2, rfl, k3, k4⟩
    | array f =>
      obtain ⟨g, rfl⟩ := kind_array (r := u) hku
      obtain ⟨f', k1, k2, k3⟩ := array_taken hat h0 hb hq hc hu he hd (fun c hc => by obtain ⟨r, e1, e2⟩ := hk c hc; exact array_eq e1 e2) hr
      exact ⟨.array f', .touch k1, k2, rfl, k3, none (by simp)⟩
    | union v e =>
      obtain ⟨v', e', rfl⟩ := kind_union (r := u) hku
      have hr' : inheritUnion (inherit n) a t s = (.ok (), s') := hr
      unfold inheritUnion at hr'
      rw [M.get_bind] at hr'
      have e1 : unionAt s a = (v, e) := by simp [unionAt, shapeAt_of hb hq]
      have e2 : unionAt s t = (v', e') := by simp [unionAt, shapeAt_of hc hu]
      simp only [e1, e2, hm v e rfl, List.isEmpty_nil, if_true] at hr'
      cases hr'
      obtain ⟨c', e'', h3, h4⟩ := he
      refine ⟨.union v' e, .touch (Touch.upd a _ s), base_upd_self hb, rfl, ⟨c', e'', ?_, h4⟩, none (by simp)⟩
      cases l with
      | nil => exact absurd rfl hl
      | cons x l => rw [List.getLast?_cons_cons]; exact h3
    | string f => exact absurd trivial hres
    | integer f => exact absurd trivial hres
    | number f => exact absurd hh hres
    | file f => exact absurd trivial hres
    | boolean f => exact absurd trivial hres
    | datetime f => exact hh.elim
    | datetimeOnly => exact absurd trivial hres
    | dateOnly => exact absurd trivial hres
    | timeOnly => exact absurd trivial hres
    | nil => exact absurd trivial hres
    | any => exact hh.elim
    | json _ _ => exact hh.elim
    | unknown _ => exact hh.elim
    | recursive _ => exact hh.elim

theorem ShapeEff.maps {l : List Addr} {q : Shape} (h : ShapeEff s0 s l q) (h1 : ∀ c ∈ l, ∀ i, (objectAt s0 c).properties = some i → s'.pmaps[i]? = s.pmaps[i]?)
    (h2 : ∀ c ∈ l, ∀ i, (objectAt s0 c).patternProperties = some i → s'.ppmaps[i]? = s.ppmaps[i]?) : ShapeEff s0 s' l q := by
  cases q <;> first | exact h | skip
  rename_i f
  have h : ObjEff s0 s l f := h
  refine ⟨h.bounds, ?_, h.req, ?_, h.more, h.ptr, h.pptr⟩
  · rw [← h.props]
    cases hf : f.properties with
    | none => rfl
    | some i =>
      obtain ⟨c, hc, e⟩ := h.ptr i hf
      simp [St.props, h1 c hc i e]
  · rw [← h.pats]
    cases hf : f.patternProperties with
    | none => rfl
    | some i =>
      obtain ⟨c, hc, e⟩ := h.pptr i hf
      simp [St.patProps, h2 c hc i e]

/-- `Inherit` on a type that is being unwrapped and a type that has taken up its line. -/
theorem inherit_taken (S : Setup s0) {n : Nat} {r : Addr} {b c : Base} {q u : Shape} {l : List Addr} (hat : a ≠ t) (h0 : s0.shapeAt a = some q)
    (hb : s.base a = some b) (hq : b.shape = some q) (hc : s.base t = some c) (hu : c.shape = some u) (hv : c.visited = false) (hku : Kind u = Kind q) (hh : Heritable q)
    (hp : ∀ i, (objectAt s0 a).properties = some i → s.pmaps[i]? = s0.pmaps[i]?)
    (hpp : ∀ i, (objectAt s0 a).patternProperties = some i → s.ppmaps[i]? = s0.ppmaps[i]?)
    (hm : ∀ v e, q = .union v e → s.slice v = [])
    (he : ShapeEff s0 s l u) (hline : Line s0 a (a :: l)) (hov : ∀ x y, Over s0 a x y → Ready s x y) (hd : (a :: l).Pairwise (Distinct s0)) (hl : l ≠ []) (hk : ∀ c ∈ l, ∃ r, s0.shapeAt c = some r ∧ Kind r = Kind q)
    (h : inherit n a t s = (.ok r, s')) :
    r = a ∧ Only (fun i => (objectAt s0 a).properties = some i) (fun i => (objectAt s0 a).patternProperties = some i) (fun x => ∃ y, Over s0 a x y) a s s' ∧
      (∀ x y, Over s0 a x y → Taken s s' x y) ∧
      ∃ b' q', s'.base a = some b' ∧ SameBase b b' ∧ b'.shape = some q' ∧ Kind q' = Kind q ∧ ShapeEff s0 s' (a :: l) q' := by
  have hov1 : ∀ x y, Over s0 a x y → (x ≠ a ∧ x ≠ t) ∧ y ≠ a ∧ y ≠ t := fun x y h => by
    obtain ⟨_, k, p, _, _, h2, _⟩ := id h
    obtain ⟨f, h3, _⟩ := props_object h2
    rw [h0] at h3
    cases h3
    obtain ⟨g, rfl⟩ := kind_object (r := u) hku
    obtain ⟨bx, cy, tx, uy, z1, z2, z3, z4, _, z5, z6⟩ := hov x y h
    refine ⟨⟨?_, ?_⟩, ?_, ?_⟩ <;> rintro rfl
    · rw [hb] at z1; cases z1; rw [hq] at z3; cases z3; exact z5
    · rw [hc] at z1; cases z1; rw [hu] at z3; cases z3; exact z5
    · rw [hb] at z2; cases z2; rw [hq] at z4; cases z4; exact z6.1
    · rw [hc] at z2; cases z2; rw [hu] at z4; cases z4; exact z6.1
  cases n with
  | zero => simp [inherit, M.diverge] at h
  | succ n =>
    simp only [inherit] at h
    rw [M.bind_of_ok (show Heap.getBase a s = (.ok b, s) by simp [Heap.getBase, hb]), M.bind_of_ok (show Heap.getBase t s = (.ok c, s) by simp [Heap.getBase, hc])] at h
    simp only [hv, Bool.false_eq_true, if_false] at h
    rw [M.bind_of_ok (upd_run _ _ _), M.bind_of_ok (upd_run _ _ _)] at h
    generalize hs1 : ({ s with bases := s.bases.modify t fun z => { z with visited := true } } : St) = s1 at h
    have hx1 : s1.base a = some b := by rw [← hs1, base_upd_ne hat]; exact hb
    have hy1 : s1.base t = some { c with visited := true } := by rw [← hs1]; exact base_upd_self hc
    generalize hs2 : ({ s1 with bases := s1.bases.modify a fun z => { z with description := match z.description with | none => c.description | some d => some d } } : St) = s2 at h
    have hx2 := hs2 ▸ base_upd_self (f := fun z => { z with description := match z.description with | none => c.description | some d => some d }) hx1
    have t2 : Touch a s1 s2 := hs2 ▸ Touch.upd a _ s1
    have hy2 : s2.base t = some { c with visited := true } := (t2.others t hat.symm).trans hy1
    obtain ⟨s3, f, h3, t3, hx3⟩ := inheritFacets_touch hx2 hy2
    have hy3 : s3.base t = some { c with visited := true } := (t3.others t hat.symm).trans hy2
    rw [M.bind_of_ok h3] at h
    unfold inheritDispatch at h
    rw [M.bind_of_ok (show Heap.getBase a s3 = (.ok _, s3) by simp [Heap.getBase, hx3]; rfl), M.bind_of_ok (show Heap.getBase t s3 = (.ok _, s3) by simp [Heap.getBase, hy3]; rfl)] at h
    simp only [hu, hq] at h
    have h' : M.bind (inheritShape (inherit n) a t q u) (fun _ => M.bind (Heap.updBase t fun x => { x with visited := false }) fun _ => M.ret a) s3 = (.ok r, s') := by
      rw [← h]
      cases q <;> first | exact hh.elim | (cases u <;> first | rfl | (simp [Kind] at hku))
    have p3 : s3.pmaps = s.pmaps := (t3.pmaps.trans t2.pmaps).trans (by rw [← hs1])
    have pp3 : s3.ppmaps = s.ppmaps := (t3.ppmaps.trans t2.ppmaps).trans (by rw [← hs1])
    have sl3 : s3.slices = s.slices := (t3.slices.trans t2.slices).trans (by rw [← hs1])
    obtain ⟨_, s4, h4, h5⟩ := M.bind_ok.1 h'
    have same3 : ∀ z, z ≠ a → z ≠ t → s3.base z = s.base z := fun z h1 h2 => by rw [t3.others z h1, t2.others z h1, ← hs1, base_upd_ne h2]
    obtain ⟨q', k1, k2, k3, k4, k5⟩ := shape_taken S hat h0 hx3 hq hy3 hu hku hh (fun i hi => by rw [p3]; exact hp i hi) (fun i hi => by rw [pp3]; exact hpp i hi)
      (fun v e hve => by simpa [St.slice, sl3] using hm v e hve) (he.maps (fun _ _ _ _ => by rw [p3]) fun _ _ _ _ => by rw [pp3]) hline (fun x y h => by
        obtain ⟨bx, cy, tx, uy, z1, z2, z3⟩ := hov x y h
        obtain ⟨h1, h2⟩ := hov1 x y h
        exact ⟨bx, cy, tx, uy, (same3 x h1.1 h1.2).trans z1, (same3 y h2.1 h2.2).trans z2, z3⟩) hd hl hk h4
    cases h5
    have hy4 := (k1.others t hat.symm fun ⟨y, h⟩ => (hov1 t y h).1.2 rfl).trans hy3
    refine ⟨rfl, ⟨fun z hz hz' => ?_, fun z hz d hd => ?_, fun z hz d hd => ?_, ?_, ?_, ?_, ?_, ?_⟩, fun x y h => ?_, _, q', (base_upd_ne hat).trans k2, ⟨rfl, rfl, rfl⟩, rfl, k3,
      k4.maps (fun _ _ _ _ => rfl) fun _ _ _ _ => rfl⟩
    · by_cases hzt : z = t
      · subst hzt
        refine (base_upd_self hy4).trans ?_
        rw [hc, ← hv]
      · refine (base_upd_ne hzt).trans ?_
        rw [k1.others z hz hz', same3 z hz hzt]
    · by_cases hzt : z = t
      · subst hzt
        rw [hc] at hd
        cases hd
        exact ⟨_, base_upd_self hy4, rfl, hv.symm, rfl⟩
      · obtain ⟨d', z1, z2⟩ := k1.vary z hz d ((same3 z hz hzt).trans hd)
        exact ⟨d', (base_upd_ne hzt).trans z1, z2⟩
    · by_cases hzt : z = t
      · subst hzt
        exact ⟨c, hc⟩
      · obtain ⟨d', z1⟩ := k1.back z hz d ((base_upd_ne hzt).symm.trans hd)
        exact ⟨d', (same3 z hz hzt).symm.trans z1⟩
    · simp only [List.length_modify]
      rw [k1.len, t3.len, t2.len, ← hs1]; simp
    · exact fun i hi => (k1.pmaps i hi).trans (by rw [p3])
    · exact fun i hi => (k1.ppmaps i hi).trans (by rw [pp3])
    · exact k1.slices.trans sl3
    · exact k1.dts.trans ((t3.dts.trans t2.dts).trans (by rw [← hs1]))
    · obtain ⟨bx, b', tx, uy, sh, z1, z2, z3, z4, z5, z6⟩ := k5 x y h
      obtain ⟨h1, h2⟩ := hov1 x y h
      refine ⟨bx, b', tx, uy, sh, (same3 x h1.1 h1.2).symm.trans z1, z2, ?_, z4, (base_upd_ne h1.2).trans z5, z6⟩
      rw [← z3]
      simp [St.shapeAt, same3 y h2.1 h2.2]

end GoRaml.Mean
