import Verif.Lemmas.Kin

/-!
# Families of scalar types during unwrapping
-/

namespace GoRaml.Kin

open GoRaml GoRaml.Spec GoRaml.Whole

/-- Scalar shapes other than `any`. -/
def Plain (q : Shape) : Prop := IsLeaf q ∧ q ≠ .any

theorem Plain.out {F : Fam} {q : Shape} (h : Plain q) : ShapeOut F q := by
  cases q <;> first | exact trivial | exact h.1.elim

theorem Plain.target {q : Shape} (h : Plain q) : IsScalarTarget q := by
  cases q <;> first | exact trivial | exact h.1.elim

theorem Plain.notUnion {q : Shape} (h : Plain q) : ∀ l e, q ≠ .union l e := by
  rintro l e rfl; exact h.1.elim

/-- The family is closed under targets of aliases, links and parents, and each step makes of a shape as wanted one as wanted. -/
structure Closed (F : Fam) (rk : Addr → Nat) : Prop where
  leaf : ∀ d q, F.P d q → Plain q
  own : ∀ d, F.D d → ∃ b sh, F.s0.base d = some b ∧ b.shape = some sh ∧ Plain sh ∧ b.unwrapped = false ∧ b.visited = false
  ali : ∀ d b sh t, F.D d → F.s0.base d = some b → b.shape = some sh → b.alias = some t →
    F.D t ∧ rk t < rk d ∧ ∀ q r, F.P t q → aliasShape sh q = .ok r → F.P d r
  lnk : ∀ d b sh k, F.D d → F.s0.base d = some b → b.shape = some sh → b.alias = none → b.link = some k →
    ∃ dt x, F.s0.dts[k]? = some dt ∧ dt.shape = some x ∧ F.D x ∧ rk x < rk d ∧ ∀ q r, F.P x q → leafInherit sh q = .ok r → F.P d r
  par : ∀ d b sh, F.D d → F.s0.base d = some b → b.shape = some sh → b.alias = none → b.link = none →
    ((b.inherits = none ∨ ∃ i : Nat, b.inherits = some i ∧ F.s0.slices[i]? = some []) ∧ F.P d sh) ∨
    ∃ (i : Nat) (p : Addr), b.inherits = some i ∧ F.s0.slices[i]? = some [p] ∧ F.D p ∧ rk p < rk d ∧ ∀ q r, F.P p q → leafInherit sh q = .ok r → F.P d r

variable {F : Fam}

/-- The type is unwrapped and its shape is as wanted. -/
def Done (F : Fam) (s : St) (d : Addr) : Prop := ∃ b q, s.base d = some b ∧ b.unwrapped = true ∧ b.visited = false ∧ b.shape = some q ∧ F.P d q

/-- The type is as it was, or unwrapped and as wanted. -/
def DSt (F : Fam) (s : St) (d : Addr) : Prop := s.base d = F.s0.base d ∨ Done F s d

theorem Done.same {s s' : St} {d : Addr} (h : Done F s d) (hb : s'.base d = s.base d) : Done F s' d := by
  obtain ⟨b, q, h1, h⟩ := h; exact ⟨b, q, hb.trans h1, h⟩

theorem DSt.same {s s' : St} {d : Addr} (h : DSt F s d) (hb : s'.base d = s.base d) : DSt F s' d := h.imp (fun h => hb.trans h) fun h => h.same hb

/-- What is common to both states of a member of the family. -/
theorem DSt.info {rk : Addr → Nat} (hc : Closed F rk) {s : St} {d : Addr} (hd : F.D d) (h : DSt F s d) :
    ∃ b q, s.base d = some b ∧ b.visited = false ∧ b.shape = some q ∧ Plain q := by
  rcases h with h | ⟨b, q, h1, _, h3, h4, h5⟩
  · obtain ⟨b, sh, h1, h2, h3, h4, h5⟩ := hc.own d hd; exact ⟨b, sh, h.trans h1, h5, h2, h3⟩
  · exact ⟨b, q, h1, h3, h4, hc.leaf d q h5⟩

/-! ## Inheriting between scalar types -/

/-- Only the base at `x` differs, and there not in what matters here. -/
structure Touch (x : Addr) (s s' : St) : Prop where
  others : ∀ z, z ≠ x → s'.base z = s.base z
  len : s'.bases.length = s.bases.length
  pmaps : s'.pmaps = s.pmaps
  ppmaps : s'.ppmaps = s.ppmaps
  slices : s'.slices = s.slices
  dts : s'.dts = s.dts

theorem Touch.refl (x : Addr) (s : St) : Touch x s s := ⟨fun _ _ => rfl, rfl, rfl, rfl, rfl, rfl⟩

theorem Touch.trans {x : Addr} {s t u : St} (h : Touch x s t) (k : Touch x t u) : Touch x s u :=
  ⟨fun z hz => (k.others z hz).trans (h.others z hz), k.len.trans h.len, k.pmaps.trans h.pmaps, k.ppmaps.trans h.ppmaps, k.slices.trans h.slices, k.dts.trans h.dts⟩

theorem base_upd_self {s : St} {a : Addr} {f : Base → Base} {b : Base} (hb : s.base a = some b) :
    ({ s with bases := s.bases.modify a f } : St).base a = some (f b) := by rw [base_upd, hb]; simp

theorem base_upd_ne {s : St} {a x : Addr} {f : Base → Base} (hx : x ≠ a) :
    ({ s with bases := s.bases.modify a f } : St).base x = s.base x := by
  rw [base_upd]
  have : ¬ a = x := fun e => hx e.symm
  cases s.base x <;> simp [this]

theorem Touch.upd (x : Addr) (f : Base → Base) (s : St) : Touch x s { s with bases := s.bases.modify x f } :=
  ⟨fun _ hz => base_upd_ne hz, by simp, rfl, rfl, rfl, rfl⟩

theorem inheritFacets_touch {x y : Addr} {s : St} {bx cy : Base} (hx : s.base x = some bx) (hy : s.base y = some cy) :
    ∃ s' f, inheritFacets x y s = (.ok (), s') ∧ Touch x s s' ∧ s'.base x = some { bx with facets := f } := by
  unfold inheritFacets
  rw [M.bind_of_ok (show Heap.getBase x s = (.ok bx, s) by simp [Heap.getBase, hx]), M.bind_of_ok (show Heap.getBase y s = (.ok cy, s) by simp [Heap.getBase, hy])]
  cases h1 : bx.facets with
  | none => exact ⟨_, cy.facets, rfl, Touch.upd x _ s, base_upd_self hx⟩
  | some i =>
    cases h2 : cy.facets with
    | none => exact ⟨s, bx.facets, rfl, Touch.refl x s, hx⟩
    | some j =>
      obtain ⟨h', h3, h4, h5⟩ := forEach_facets i (s.facetMap (some j)) s
      exact ⟨h', bx.facets, h3, ⟨fun z _ => by simp [St.base, h5], by rw [h5], h4.pmaps, h4.ppmaps, h4.slices, h4.dts⟩, by simp only [St.base, h5]; exact hx⟩

/-- Inheriting from a scalar type that is not visited changes the shape, the description and the facet values of the target only. -/
theorem inherit_exact {n : Nat} {x y r : Addr} {s s' : St} {bx cy : Base} {t u : Shape} (hxy : x ≠ y) (hx : s.base x = some bx) (hy : s.base y = some cy)
    (ht : bx.shape = some t) (hu : cy.shape = some u) (hv : cy.visited = false) (hst : IsScalarTarget t) (hpu : Plain u)
    (h : inherit n x y s = (.ok r, s')) :
    r = x ∧ Touch x s s' ∧ ∃ sh b', leafInherit t u = .ok sh ∧ s'.base x = some b' ∧ b'.shape = some sh ∧ b'.unwrapped = bx.unwrapped ∧
      b'.visited = bx.visited ∧ b'.facetDefs = bx.facetDefs := by
  cases n with
  | zero => simp [inherit, M.diverge] at h
  | succ n =>
    simp only [inherit] at h
    rw [M.bind_of_ok (show Heap.getBase x s = (.ok bx, s) by simp [Heap.getBase, hx]), M.bind_of_ok (show Heap.getBase y s = (.ok cy, s) by simp [Heap.getBase, hy])] at h
    simp only [hv, Bool.false_eq_true, if_false] at h
    rw [M.bind_of_ok (upd_run _ _ _), M.bind_of_ok (upd_run _ _ _)] at h
    generalize hs1 : ({ s with bases := s.bases.modify y fun z => { z with visited := true } } : St) = s1 at h
    have hx1 : s1.base x = some bx := by rw [← hs1, base_upd_ne hxy]; exact hx
    have hy1 : s1.base y = some { cy with visited := true } := by rw [← hs1]; exact base_upd_self hy
    generalize hs2 : ({ s1 with bases := s1.bases.modify x fun z => { z with description := match z.description with | none => cy.description | some d => some d } } : St) = s2 at h
    have hx2 := hs2 ▸ base_upd_self (f := fun z => { z with description := match z.description with | none => cy.description | some d => some d }) hx1
    have t2 : Touch x s1 s2 := hs2 ▸ Touch.upd x _ s1
    have hy2 : s2.base y = some { cy with visited := true } := (t2.others y hxy.symm).trans hy1
    obtain ⟨s3, f, h3, t3, hx3⟩ := inheritFacets_touch hx2 hy2
    have hy3 : s3.base y = some { cy with visited := true } := (t3.others y hxy.symm).trans hy2
    rw [M.bind_of_ok h3] at h
    unfold inheritDispatch at h
    rw [M.bind_of_ok (show Heap.getBase x s3 = (.ok _, s3) by simp [Heap.getBase, hx3]; rfl), M.bind_of_ok (show Heap.getBase y s3 = (.ok _, s3) by simp [Heap.getBase, hy3]; rfl)] at h
    simp only [hu, ht] at h
    have h' : M.bind (M.bind (M.lift (leafInherit t u)) fun r => setShape x r) (fun _ => M.bind (Heap.updBase y fun x => { x with visited := false }) fun _ => M.ret x) s3 =
        (.ok r, s') := by
      rw [← h]
      cases t <;> simp only [IsScalarTarget] at hst <;> cases u <;> first | rfl | exact absurd rfl hpu.2 | exact hpu.1.elim
    obtain ⟨_, s4, h4, h5⟩ := M.bind_ok.1 h'
    obtain ⟨sh, s3', h6, h7⟩ := M.bind_ok.1 h4
    cases hl : leafInherit t u with
    | ok sh' =>
      rw [hl] at h6
      cases h6
      cases h7
      cases h5
      have t4 := Touch.upd x (fun b => { b with shape := some sh }) s3
      have hx4 := base_upd_self (f := fun b => { b with shape := some sh }) hx3
      have hy4 := (t4.others y hxy.symm).trans hy3
      refine ⟨rfl, ⟨fun z hz => ?_, ?_, ?_, ?_, ?_, ?_⟩, sh, _, rfl, (base_upd_ne hxy).trans hx4, rfl, rfl, rfl, rfl⟩
      · by_cases hzy : z = y
        · subst hzy
          refine (base_upd_self hy4).trans ?_
          rw [hy, ← hv]
        · refine (base_upd_ne hzy).trans ?_
          rw [t4.others z hz, t3.others z hz, t2.others z hz, ← hs1, base_upd_ne hzy]
      · simp only [List.length_modify]
        rw [t3.len, t2.len, ← hs1]; simp
      · exact (t3.pmaps.trans t2.pmaps).trans (by rw [← hs1])
      · exact (t3.ppmaps.trans t2.ppmaps).trans (by rw [← hs1])
      · exact (t3.slices.trans t2.slices).trans (by rw [← hs1])
      · exact (t3.dts.trans t2.dts).trans (by rw [← hs1])
    | err e => rw [hl] at h6; cases h6
    | panic e => rw [hl] at h6; cases h6
    | diverge => rw [hl] at h6; cases h6

/-! ## Unwrapping a member of the family -/

/-- Only members of rank at most `m` changed, and those are done. -/
structure Fr (F : Fam) (rk : Addr → Nat) (m : Nat) (s s' : St) : Prop where
  out : ∀ x, (¬ F.D x ∨ m < rk x) → s'.base x = s.base x
  mem : ∀ x, F.D x → s'.base x = s.base x ∨ Done F s' x
  len : s'.bases.length = s.bases.length
  pmaps : s'.pmaps = s.pmaps
  ppmaps : s'.ppmaps = s.ppmaps
  slices : s'.slices = s.slices
  dts : s'.dts = s.dts

variable {rk : Addr → Nat}

theorem Inv.fr {m : Nat} {s s' : St} (hc : Closed F rk) (hw : Inv F s) (h : Fr F rk m s s') : Inv F s' := by
  refine hw.grow (by rw [h.len]) (fun a b hb => ?_) (fun m hm => .inl (h.pmaps ▸ hm)) (fun _ _ => by rw [h.pmaps]) (fun m hm => .inl (h.ppmaps ▸ hm)) (slices_same h.slices)
    (by rw [h.dts])
  by_cases ha : F.D a
  · rcases h.mem a ha with h1 | ⟨b', q, h1, _, _, h4, h5⟩
    · exact .inl (by rw [← h1]; exact hb)
    · rw [hb] at h1; cases h1
      exact .inr fun sh hs => by rw [h4] at hs; cases hs; exact (hc.leaf a _ h5).out
  · exact .inl (by rw [← h.out a (.inl ha)]; exact hb)

theorem unwrap_member (hc : Closed F rk) : ∀ n d s r s', F.D d → Inv F s → (∀ x, F.D x → rk x ≤ rk d → DSt F s x) → unwrap n d s = (.ok r, s') →
    r = d ∧ Fr F rk (rk d) s s' ∧ Done F s' d
  | 0, d, s, r, s', _, _, _, h => by simp [unwrap, M.diverge] at h
  | n + 1, d, s, r, s', hd, hw, hst, h => by
    have ih := unwrap_member hc n
    rcases hst d hd (Nat.le_refl _) with h0 | hdone
    · obtain ⟨b, sh, hb, hsh, hpl, hun, hvis⟩ := hc.own d hd
      have hbs : s.base d = some b := h0.trans hb
      unfold unwrap at h
      rw [M.bind_of_ok (show Heap.getBase d s = (.ok b, s) by simp [Heap.getBase, hbs])] at h
      simp only [hsh, hun, Bool.false_eq_true, if_false] at h
      rw [M.bind_of_ok (upd_run _ _ _)] at h
      have hw1 := hw.upd (a := d) (f := fun y => { y with unwrapped := true }) fun c hcb sh' hs' => hw.base d c sh' hcb hs'
      have tch1 := Touch.upd d (fun y => { y with unwrapped := true }) s
      have hb1 := base_upd_self (f := fun y => { y with unwrapped := true }) hbs
      generalize ({ s with bases := s.bases.modify d fun y => { y with unwrapped := true } } : St) = s1 at h hw1 hb1 tch1
      have st1 : ∀ t, rk t < rk d → ∀ x, F.D x → rk x ≤ rk t → DSt F s1 x := fun t ht x hx hxt =>
        DSt.same (hst x hx (by omega)) (tch1.others x (by rintro rfl; omega))
      -- the final frame from the pieces
      have fin : ∀ {t : Addr} {s2 s5 : St}, rk t < rk d → Fr F rk (rk t) s1 s2 → Touch d s2 s5 → Done F s5 d → Fr F rk (rk d) s s5 := by
        intro t s2 s5 ht f2 t5 hD
        refine ⟨fun x hx => ?_, fun x hx => ?_, ?_, ?_, ?_, ?_, ?_⟩
        · have hxd : x ≠ d := by rintro rfl; rcases hx with hx | hx; exact hx hd; exact absurd hx (Nat.lt_irrefl _)
          rw [t5.others x hxd, f2.out x (hx.imp id fun h => by omega), tch1.others x hxd]
        · by_cases hxd : x = d
          · subst hxd; exact .inr hD
          · rcases f2.mem x hx with h | h
            · exact .inl (by rw [t5.others x hxd, h, tch1.others x hxd])
            · exact .inr (h.same (t5.others x hxd))
        · rw [t5.len, f2.len, tch1.len]
        · rw [t5.pmaps, f2.pmaps, tch1.pmaps]
        · rw [t5.ppmaps, f2.ppmaps, tch1.ppmaps]
        · rw [t5.slices, f2.slices, tch1.slices]
        · rw [t5.dts, f2.dts, tch1.dts]
      cases hal : b.alias with
      | some t =>
        simp only [hal] at h
        obtain ⟨hDt, hrk, hstep⟩ := hc.ali d b sh t hd hb hsh hal
        obtain ⟨us, s2, h2, hA⟩ := M.bind_ok.1 h
        clear h
        obtain ⟨rfl, f2, D2⟩ := ih t s1 us s2 hDt hw1 (st1 t hrk) h2
        obtain ⟨bt, q, hbt, _, _, hq, hP⟩ := D2
        have hb2 : s2.base d = some { b with unwrapped := true } := (f2.out d (.inr hrk)).trans hb1
        have hne : us ≠ d := by rintro rfl; exact absurd hrk (Nat.lt_irrefl _)
        obtain ⟨_, s3, h3, h⟩ := M.bind_ok.1 hA
        clear hA
        cases h3
        have hb3 : St.base { s2 with shapes := s2.shapes ++ [d] } d = some { b with unwrapped := true } := hb2
        have hbt3 : St.base { s2 with shapes := s2.shapes ++ [d] } us = some bt := hbt
        have tch3 : Touch d s2 { s2 with shapes := s2.shapes ++ [d] } := ⟨fun _ _ => rfl, rfl, rfl, rfl, rfl, rfl⟩
        generalize ({ s2 with shapes := s2.shapes ++ [d] } : St) = s3 at h hb3 hbt3 tch3
        unfold aliasTo at h
        rw [M.bind_of_ok (show Heap.getShape d s3 = (.ok sh, s3) by simp [Heap.getShape, St.shapeAt, hb3, hsh]),
          M.bind_of_ok (show Heap.getShape us s3 = (.ok q, s3) by simp [Heap.getShape, St.shapeAt, hbt3, hq])] at h
        replace h := M.bind_ok.1 h; obtain ⟨r', s4, h4, h⟩ := h
        cases hl : aliasShape sh q with
        | ok r2 =>
          rw [hl] at h4
          cases h4
          unfold setShape at h
          rw [M.bind_of_ok (upd_run _ _ _)] at h
          have hb4 := base_upd_self (f := fun b => { b with shape := some r' }) hb3
          have tch4 := Touch.upd d (fun b => { b with shape := some r' }) s3
          generalize ({ s3 with bases := s3.bases.modify d fun b => { b with shape := some r' } } : St) = s4 at h hb4 tch4
          have hbt4 := (tch4.others us hne).trans hbt3
          rw [M.bind_of_ok (show Heap.getBase us s4 = (.ok bt, s4) by simp [Heap.getBase, hbt4]), M.bind_of_ok (upd_run _ _ _)] at h
          simp only [M.ret, Prod.mk.injEq, Out.ok.injEq] at h
          obtain ⟨rfl, rfl⟩ := h
          have hb5 := base_upd_self (f := fun x => { x with
            displayName := bt.displayName, description := bt.description, example_ := bt.example_, examples := bt.examples, inherits := bt.inherits, «alias» := bt.alias,
            default := bt.default, required := bt.required, facets := bt.facets, facetDefs := bt.facetDefs, domainProps := bt.domainProps }) hb4
          have hD : Done F _ d := ⟨_, r', hb5, rfl, hvis, rfl, hstep q r' hP hl⟩
          exact ⟨rfl, fin hrk f2 (tch3.trans (tch4.trans (Touch.upd d _ s4))) hD, hD⟩
        | err e => rw [hl] at h4; cases h4
        | panic e => rw [hl] at h4; cases h4
        | diverge => rw [hl] at h4; cases h4
      | none =>
        simp only [hal] at h
        replace h := M.bind_ok.1 h; obtain ⟨o, s2, h2, h⟩ := h
        -- what follows once the parent is known
        have rest : ∀ {s2 : St} {b2 : Base} {o : Option Addr}, s2.base d = some b2 → b2.shape = some sh → b2.visited = false → b2.unwrapped = true →
            b2.facetDefs = b.facetDefs → s2.pmaps = s.pmaps →
            (M.bind (unwrapTarget (unwrap n) n d) fun _ => M.bind (Heap.getBase d) fun b' =>
              M.bind (whenSome b'.facetDefs fun i => unwrapFacetDefs (unwrap n) d i n 0) fun _ => unwrapFinish n d o) s2 = (.ok r, s') →
            unwrapFinish n d o s2 = (.ok r, s') := by
          intro s2 b2 o hb2 hs2 _ _ hf2 hp2 h
          have ht : unwrapTarget (unwrap n) n d s2 = (.ok (), s2) := by
            unfold unwrapTarget
            show unwrapTargetShape (unwrap n) n d (s2.shapeAt d) s2 = _
            rw [shapeAt_of_base hb2, hs2]
            unfold unwrapTargetShape
            cases sh <;> first | rfl | exact hpl.1.elim
          rw [M.bind_of_ok ht, M.bind_of_ok (show Heap.getBase d s2 = (.ok b2, s2) by simp [Heap.getBase, hb2])] at h
          replace h := M.bind_ok.1 h; obtain ⟨_, s3, h3, h⟩ := h
          cases hfd : b2.facetDefs with
          | none => rw [hfd] at h3; cases h3; exact h
          | some i =>
            rw [hfd] at h3
            have hE : F.E i := ⟨d, b, hd, hb, by rw [← hf2]; exact hfd⟩
            have hm : s2.props (some i) = [] := by unfold St.props; simp only; rw [hp2, hw.empt i hE]; rfl
            cases n with
            | zero => simp [whenSome, unwrapFacetDefs, M.diverge] at h3
            | succ n =>
              simp only [whenSome, unwrapFacetDefs, hm, List.getElem?_nil] at h3
              cases h3
              exact h
        obtain ⟨b0, s1', h20, h21⟩ := M.bind_ok.1 h2
        clear h2
        have h2 := h21
        clear h21
        simp only [Heap.getBase, hb1, Prod.mk.injEq, Out.ok.injEq] at h20
        obtain ⟨rfl, rfl⟩ := h20
        -- the end, with a parent
        have last : ∀ {p : Addr} {s2 s2' : St} {b2 : Base}, F.D p → rk p < rk d → (∀ q r, F.P p q → leafInherit sh q = .ok r → F.P d r) → Fr F rk (rk p) s1 s2 →
            Done F s2 p → Touch d s2 s2' → s2'.base d = some b2 → b2.shape = some sh → b2.visited = false → b2.unwrapped = true →
            unwrapFinish n d (some p) s2' = (.ok r, s') → r = d ∧ Fr F rk (rk d) s s' ∧ Done F s' d := by
          intro p s2 s2' b2 hDp hrk hstep f2 D2 t2 hb2 hs2 hv2 hu2 hz
          have hne : p ≠ d := by rintro rfl; exact absurd hrk (Nat.lt_irrefl _)
          obtain ⟨bp, q, hbp, _, hvp, hq, hP⟩ := D2.same (t2.others p hne)
          unfold unwrapFinish at hz
          replace hz := M.bind_ok.1 hz; obtain ⟨r1, s3, h3, hz⟩ := hz
          clear h h2
          obtain ⟨rfl, t3, r2, b3, hl, hb3, hs3, hu3, hv3, _⟩ := inherit_exact hne.symm hb2 hbp hs2 hq hvp hpl.target (hc.leaf p q hP) h3
          cases hz
          have tch : Touch r s3 { s3 with shapes := s3.shapes ++ [r] } := ⟨fun _ _ => rfl, rfl, rfl, rfl, rfl, rfl⟩
          have hD : Done F { s3 with shapes := s3.shapes ++ [r] } r := ⟨b3, r2, hb3, hu3.trans hu2, hv3.trans hv2, hs3, hstep q r2 hP hl⟩
          exact ⟨rfl, fin hrk f2 (t2.trans (t3.trans tch)) hD, hD⟩
        cases hlk : b.link with
        | some k =>
          simp only [hlk] at h2
          obtain ⟨dt, x, hdt, hdx, hDx, hrk, hstep⟩ := hc.lnk d b sh k hd hb hsh hal hlk
          obtain ⟨dt', hdt', hdx'⟩ := hw1.dts k dt x hdt hdx hDx
          rw [hdt', Option.bind_some, hdx'] at h2
          replace h2 := M.bind_ok.1 h2; obtain ⟨us, s3, h3, h2⟩ := h2
          obtain ⟨rfl, f3, D3⟩ := ih x s1 us s3 hDx hw1 (st1 x hrk) h3
          rw [M.bind_of_ok (upd_run _ _ _)] at h2
          cases h2
          have hb3 : s3.base d = some { b with unwrapped := true } := (f3.out d (.inr hrk)).trans hb1
          have hb4 := base_upd_self (f := fun y => { y with link := none }) hb3
          exact last hDx hrk hstep f3 D3 (Touch.upd d _ s3) hb4 hsh hvis rfl (rest hb4 hsh hvis rfl rfl (f3.pmaps.trans tch1.pmaps) h)
        | none =>
          simp only [hlk] at h2
          rcases hc.par d b sh hd hb hsh hal hlk with ⟨hin, hP⟩ | ⟨i, p, hi, hsl, hDp, hrk, hstep⟩
          · have h2' : o = none ∧ s2 = s1 := by
              rcases hin with hin | ⟨i, hi, hsl⟩
              · rw [hin] at h2; cases h2; exact ⟨rfl, rfl⟩
              · have : s1.slice (some i) = [] := by unfold St.slice; simp only; rw [hw1.zero i hsl]; rfl
                rw [hi, this] at h2; cases h2; exact ⟨rfl, rfl⟩
            obtain ⟨rfl, rfl⟩ := h2'
            have h := rest hb1 hsh hvis rfl rfl tch1.pmaps h
            cases h
            have hD : Done F { s2 with shapes := s2.shapes ++ [d] } d := ⟨_, sh, hb1, rfl, hvis, hsh, hP⟩
            refine ⟨rfl, ⟨fun x hx => ?_, fun x hx => ?_, tch1.len, tch1.pmaps, tch1.ppmaps, tch1.slices, tch1.dts⟩, hD⟩
            · exact tch1.others x (by rintro rfl; rcases hx with hx | hx; exact hx hd; exact absurd hx (Nat.lt_irrefl _))
            · by_cases hxd : x = d
              · subst hxd; exact .inr hD
              · exact .inl (tch1.others x hxd)
          · have hsl1 := hw1.one i p hsl hDp
            have : s1.slice (some i) = [p] := by unfold St.slice; simp only; rw [hsl1]; rfl
            rw [hi, this] at h2
            replace h2 := M.bind_ok.1 h2; obtain ⟨us, s3, h3, h2⟩ := h2
            obtain ⟨rfl, f3, D3⟩ := ih p s1 us s3 hDp hw1 (st1 p hrk) h3
            replace h2 := M.bind_ok.1 h2; obtain ⟨_, s4, h4, h2⟩ := h2
            have hsame : (Heap.setSliceAt i 0 us s3) = (.ok (), s3) := by
              unfold Heap.setSliceAt
              have : s3.slices.modify i (fun l => l.set 0 us) = s3.slices := by
                apply List.ext_getElem?
                intro j
                rw [List.getElem?_modify]
                by_cases hj : i = j
                · subst hj; rw [f3.slices, hsl1]; simp
                · simp [hj]
              rw [this]
            rw [hsame] at h4
            cases h4
            cases h2
            have hb3 : s2.base d = some { b with unwrapped := true } := (f3.out d (.inr hrk)).trans hb1
            exact last hDp hrk hstep f3 D3 (Touch.refl d s2) hb3 hsh hvis rfl (rest hb3 hsh hvis rfl rfl (f3.pmaps.trans tch1.pmaps) h)
    · obtain ⟨b, q, h1, h2, h3, h4, h5⟩ := hdone
      unfold unwrap at h
      rw [M.bind_of_ok (show Heap.getBase d s = (.ok b, s) by simp [Heap.getBase, h1])] at h
      simp only [h4, h2, if_true] at h
      cases h
      exact ⟨rfl, ⟨fun _ _ => rfl, fun _ _ => .inl rfl, rfl, rfl, rfl, rfl, rfl⟩, b, q, h1, h2, h3, h4, h5⟩

end GoRaml.Kin
