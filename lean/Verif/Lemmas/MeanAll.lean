import Verif.Lemmas.MeanUnwrap

/-!
# What the types of a straight model mean: each type is unwrapped
-/

namespace GoRaml.Mean

open GoRaml GoRaml.Spec GoRaml.Kin

variable {s0 s s' : St} {a t : Addr} {G : Addr → Prop}

/-- What an alias becomes. -/
theorem aliasShape_cases {q u r : Shape} (h : aliasShape q u = .ok r) : r = u ∨ ∃ e e', q = .boolean e ∧ u = .boolean e' ∧ r = .boolean e := by
  cases q <;> cases u <;> simp only [aliasShape, reduceCtorEq, Out.ok.injEq] at h <;> subst h <;> first | exact .inl rfl | exact .inr ⟨_, _, rfl, rfl, rfl⟩

theorem kind_boolean {r : Shape} {e' : Option (List GoVal)} (h : Kind r = Kind (.boolean e')) : ∃ e, r = .boolean e := by
  have h : Kind r = "boolean" := h
  cases r <;> simp_all [Kind]

theorem aliasTo_taken {r : Addr} {b c : Base} (hat : a ≠ t) (hb : s.base a = some b) (hc : s.base t = some c) (h : aliasTo a t s = (.ok r, s')) :
    r = a ∧ Touch a s s' ∧ ∃ q u q' b', b.shape = some q ∧ c.shape = some u ∧ aliasShape q u = .ok q' ∧ s'.base a = some b' ∧ b'.shape = some q' ∧
      b'.unwrapped = b.unwrapped ∧ b'.visited = b.visited ∧ b'.facetDefs = c.facetDefs := by
  unfold aliasTo at h
  replace h := M.bind_ok.1 h
  obtain ⟨q, s1, h1, h⟩ := h
  replace h := M.bind_ok.1 h
  obtain ⟨u, s2, h2, h⟩ := h
  replace h := M.bind_ok.1 h
  obtain ⟨q', s3, h3, h⟩ := h
  simp only [Heap.getShape, St.shapeAt, hb, Option.bind_some] at h1
  cases hq : b.shape with
  | none => simp [hq] at h1
  | some q1 =>
    simp only [hq, Prod.mk.injEq, Out.ok.injEq] at h1
    obtain ⟨rfl, rfl⟩ := h1
    simp only [Heap.getShape, St.shapeAt, hc, Option.bind_some] at h2
    cases hu : c.shape with
    | none => simp [hu] at h2
    | some u1 =>
      simp only [hu, Prod.mk.injEq, Out.ok.injEq] at h2
      obtain ⟨rfl, rfl⟩ := h2
      obtain ⟨h3', e3⟩ := M.lift_ok.1 h3
      subst e3
      rw [M.bind_of_ok (show setShape a q' s = (.ok (), _) from rfl)] at h
      have hb4 := base_upd_self (f := fun b => { b with shape := some q' }) hb
      have tch4 := Touch.upd a (fun b => { b with shape := some q' }) s
      generalize ({ s with bases := s.bases.modify a fun b => { b with shape := some q' } } : St) = s4 at h hb4 tch4
      have hc4 := (tch4.others t hat.symm).trans hc
      rw [M.bind_of_ok (show Heap.getBase t s4 = (.ok c, s4) by simp [Heap.getBase, hc4]), M.bind_of_ok (upd_run _ _ _)] at h
      simp only [M.ret, Prod.mk.injEq, Out.ok.injEq] at h
      obtain ⟨rfl, rfl⟩ := h
      exact ⟨rfl, tch4.trans (Touch.upd a _ s4), q1, u1, q', _, rfl, rfl, h3', base_upd_self hb4, rfl, rfl, rfl, rfl⟩

theorem eff_kind {x : Addr} {l : List Addr} {q u : Shape} (h : Eff s0 s x l) (h0 : s0.shapeAt x = some q) (hs : s.shapeAt x = some u) : Kind u = Kind q ∧ ShapeEff s0 s l u := by
  obtain ⟨q0, q1, m1, m2, m3, m4⟩ := h
  rw [h0] at m1
  rw [hs] at m2
  cases m1
  cases m2
  exact ⟨m3, m4⟩

theorem line_descends {x : Addr} {l : List Addr} (hl : Line s0 x l) : ∀ c ∈ l, Descends s0 x c := by
  have up : ∀ {x y z : Addr}, BuiltOn s0 x y → Descends s0 y z → Descends s0 x z := fun h k => by
    induction k with
    | refl => exact .step (.refl _) h
    | step _ h2 ih => exact .step ih h2
  induction hl with
  | root => exact fun c hc => by rw [List.mem_singleton.1 hc]; exact .refl _
  | «alias» h1 h2 _ ih => exact fun c hc => up (.alias h1 h2) (ih c hc)
  | on _ _ h3 _ ih =>
    intro c hc
    rcases List.mem_cons.1 hc with rfl | hc
    · exact .refl _
    · exact up h3 (ih c hc)

theorem line_plain {x : Addr} {l : List Addr} (hl : Line s0 x l) : ∀ c ∈ l, ∃ b, s0.base c = some b ∧ b.alias = none := by
  induction hl with
  | root h1 h2 => exact fun c hc => by rw [List.mem_singleton.1 hc]; exact ⟨_, h1, h2⟩
  | «alias» _ _ _ ih => exact ih
  | on h1 h2 _ _ ih =>
    intro c hc
    rcases List.mem_cons.1 hc with rfl | hc
    · exact ⟨_, h1, h2⟩
    · exact ih c hc

/-- An alias is finished. -/
theorem alias_close (S : Setup s0) {r : Addr} {b0 : Base} (hi : Inv s0 (fun x => G x ∨ x = a) s) (hg : ¬ G a) (hp : ∀ g, G g → InvolvesDeeply s0 g a)
    (h0 : s0.base a = some b0) (hal : b0.alias = some t) (hu : Unw s t) (h : aliasTo a t s = (.ok r, s')) : r = a ∧ Goes s0 G a s s' := by
  have hbt : BuiltOn s0 a t := .alias h0 hal
  obtain ⟨hne, c, hc, hcv, hline⟩ := hi.target S (.inr rfl) (fun g hg => hg.elim (fun h => .inr (hp g h)) .inl) hbt hu
  obtain ⟨b, hb, hbu, hbv, hbs, _⟩ := hi.opened (.inr rfl) h0
  obtain ⟨e, tch, q, u, q', b', k1, k2, k3, k4, k5, k6, k7, k8⟩ := aliasTo_taken hne.symm hb hc h
  subst e
  obtain ⟨bt0, ht0⟩ := S.next r t (.inr hbt)
  obtain ⟨qt, _, hqt⟩ := S.shapeAt ht0
  have hq0 : s0.shapeAt r = some q := shapeAt_of h0 (hbs ▸ k1)
  have hkd := S.straight.kinds _ _ q qt hbt hq0 hqt
  have ua : Unw s' r := ⟨b', k4, k6.trans hbu⟩
  refine ⟨rfl, hi.close S hg (.touch tch) h0 k4 (k6.trans hbu) (k7.trans hbv) (fun i h => hi.defs t c i hc (k8 ▸ h)) (fun y hy => BuiltOn.unique hbt hy ▸ hu)
    (fun h => by rw [hal] at h; cases h) (fun l hl => ?_) (fun x y ⟨_, _, _, _, h1, _⟩ => by
      obtain ⟨b, j1, j2⟩ := line_plain h1 r (by simp)
      rw [h0] at j1
      cases j1
      rw [hal] at j2
      cases j2), ua, fun x ⟨d, h1, h2⟩ => ?_⟩
  · have hlt : Line s0 t l := by
      cases hl with
      | root h1 h2 => rw [h0] at h1; cases h1; rw [hal] at h2; cases h2
      | «alias» h1 h2 h3 => rw [h0] at h1; cases h1; rw [hal] at h2; cases h2; exact h3
      | on h1 h2 => rw [h0] at h1; cases h1; rw [hal] at h2; cases h2
    obtain ⟨m1, m2⟩ := hline l hlt
    obtain ⟨m3, m4⟩ := eff_kind m1 hqt (shapeAt_of hc k2)
    refine ⟨⟨q, q', hq0, shapeAt_of k4 k5, ?_, ?_⟩, fun c hc _ => m2 c hc⟩
    · rcases aliasShape_cases k3 with rfl | ⟨e, e', rfl, rfl, rfl⟩
      · exact m3.trans hkd.symm
      · rfl
    · rcases aliasShape_cases k3 with rfl | ⟨e, e', rfl, rfl, rfl⟩
      · exact m4.maps (fun _ _ _ _ => by rw [tch.pmaps]) fun _ _ _ _ => by rw [tch.ppmaps]
      · have hno : b0.alias ≠ none := by rw [hal]; simp
        have he : e = none := S.straight.booleans r b0 r e h0 hno (.refl _) hq0
        subst he
        obtain ⟨hne, hall⟩ := S.lineKind hl hq0
        have key : ∀ c ∈ l, s0.shapeAt c = some (.boolean none) := fun c hc => by
          obtain ⟨sh, h1, h2⟩ := hall c hc
          obtain ⟨e, rfl⟩ := kind_boolean h2
          rw [h1, S.straight.booleans r b0 c e h0 hno (line_descends hl c hc) h1]
        refine .inr ⟨⟨trivial, by simp⟩, fun E v => ⟨fun h c hc => ⟨_, key c hc, h⟩, fun h => ?_⟩, (fun f e => by cases e), fun _ => trivial⟩
        cases l with
        | nil => exact absurd rfl hne
        | cons c l =>
          obtain ⟨sh, h1, h2⟩ := h c (by simp)
          rw [key c (by simp)] at h1
          cases h1
          exact h2
  · by_cases hx : x = r
    · subst hx; exact ua
    · exact ⟨d, by rw [tch.others x hx]; exact h1, h2⟩

/-- A type that is built on no other is finished. -/
theorem root_close (S : Setup s0) {b0 : Base} (hi : Inv s0 (fun x => G x ∨ x = a) s) (hg : ¬ G a) (h0 : s0.base a = some b0) (hr : Root s0 a)
    (hparts : ∀ y, Refers s0 a y → Unw s y) : Inv s0 G s ∧ Unw s a := by
  obtain ⟨b, hb, hbu, hbv, hbs, _⟩ := hi.opened (.inr rfl) h0
  refine ⟨hi.close S hg .refl h0 hb hbu hbv (fun i h => hi.defs a b i hb h) (fun y hy => absurd hy (hr y)) (fun _ => hparts) (fun l hl => ?_) (fun x y ⟨_, _, _, _, h1, _, h2, _⟩ => by
    cases root_line hr h1
    cases h2), b, hb, hbu⟩
  have := root_line hr hl
  subst this
  exact ⟨hi.root S hr h0 (by simp [St.shapeAt, hb, h0, hbs]), fun c hc hne => absurd (List.mem_singleton.1 hc) hne⟩

/-- A scalar type involves scalar types only. -/
theorem leaf_involves (S : Setup s0) {y z : Addr} {q : Shape} (hq : s0.shapeAt y = some q) (hl : IsLeaf q) (h : InvolvesDeeply s0 y z) : ∃ r, s0.shapeAt z = some r ∧ IsLeaf r := by
  have one : ∀ {y z q}, s0.shapeAt y = some q → IsLeaf q → Involves s0 y z → ∃ r, s0.shapeAt z = some r ∧ IsLeaf r := fun {y z q} hq hl h => by
    rcases id h with ⟨q', h1, h2⟩ | h1
    · rw [hq] at h1
      cases h1
      cases h2 <;> exact hl.elim
    · obtain ⟨b, hb⟩ := S.next y z h
      obtain ⟨r, _, hr⟩ := S.shapeAt hb
      exact ⟨r, hr, kind_leaf (S.straight.kinds _ _ q r h1 hq hr) hl⟩
  induction h with
  | one h => exact one hq hl h
  | more _ h ih =>
    obtain ⟨r, h1, h2⟩ := ih
    exact one h1 h2 h

theorem Inv.doneAt (hi : Inv s0 G s) {x : Addr} (hu : Unw s x) (hg : ¬ G x) : ∃ b0 b, s0.base x = some b0 ∧ s.base x = some b ∧ b.visited = false ∧
    (b0.alias = none → ∀ y, Refers s0 x y → Unw s y) ∧ ∀ l, Line s0 x l → (¬ Sealed s0 s G x → Eff s0 s x l) ∧ ∀ c ∈ l, Fixed s0 s G c := by
  obtain ⟨b, hb, hbu⟩ := hu
  obtain ⟨b0, h0⟩ := hi.base0 hb
  obtain ⟨b', k1, k2, k3⟩ := hi.node x b0 h0
  rw [hb] at k1
  cases k1
  cases k3 with
  | raw e1 => rw [hbu] at e1; cases e1
  | opened _ e => exact absurd e hg
  | done e1 e2 e3 e4 e5 => exact ⟨b0, b, h0, hb, k2, e4, e5⟩

theorem scalar_shape (S : Setup s0) {x : Addr} (h : Scalar s0 x) : ∃ q, s0.shapeAt x = some q ∧ IsLeaf q := by
  obtain ⟨lx, hlx, hcx⟩ := h
  obtain ⟨b, hb⟩ := line_base hlx
  obtain ⟨q0, _, hq0⟩ := S.shapeAt hb
  obtain ⟨hne, hall⟩ := S.lineKind hlx hq0
  obtain ⟨c, hc⟩ := List.exists_mem_of_ne_nil _ hne
  obtain ⟨r, h1, h2⟩ := hall c hc
  obtain ⟨q, h3, h4⟩ := hcx c hc
  rw [h1] at h3
  cases h3
  exact ⟨q0, hq0, kind_leaf h2 (Kin.Restricting.plain h4).1⟩

theorem scalar_leafAt {x : Addr} {l : List Addr} (hs : Scalar s0 x) (hl : Line s0 x l) (hk : ∃ q, s0.shapeAt x = some q ∧ IsLeaf q) (he : Eff s0 s x l) : LeafAt s0 s x l := by
  obtain ⟨q0, q, h1, h2, h3, h4⟩ := he
  obtain ⟨q0', h5, h6⟩ := hk
  rw [h1] at h5
  cases h5
  obtain ⟨l', hl', hc⟩ := hs
  cases Line.unique hl' hl
  have hlq : IsLeaf q := kind_leaf h3.symm h6
  have he : LeafEff s0 l q := by cases q <;> first | exact h4 | exact hlq.elim
  exact ⟨q0, q, h1, h2, h3, Kin.Restricting.plain (he.restricting hc), he⟩

/-- The types of the properties that override others, and the types they override. -/
theorem override_ready (S : Setup s0) {lt : List Addr} {qa : Shape} (hi : Inv s0 (fun x => G x ∨ x = a) s) (hp : ∀ g, G g → InvolvesDeeply s0 g a) (h0 : s0.shapeAt a = some qa)
    (hl : Line s0 a (a :: lt)) (hfix : ∀ c ∈ lt, Fixed s0 s (fun x => G x ∨ x = a) c) (hparts : ∀ y, Refers s0 a y → Unw s y) {x y : Addr} (h : Over s0 a x y) :
    Unw s x ∧ ¬ (G x ∨ x = a) ∧ Ready s x y ∧ ∃ lx ly, Cov s0 x (lx ++ ly) ∧ LeafAt s0 s x lx ∧ LeafAt s0 s y ly ∧
      ∀ c ∈ lx, ∀ c' ∈ ly, ¬ (HasPattern s0 c ∧ HasPattern s0 c') := by
  obtain ⟨hsx, hsy, _⟩ := S.overScalar h (.refl y)
  obtain ⟨lt', c, k, p, q, hl', hc, hpa, hpc, rfl, rfl, hd⟩ := S.overAt h (.refl y)
  cases Line.unique hl' hl
  obtain ⟨f, hf1, hf2⟩ := props_object hpa
  obtain ⟨g, hg1, hg2⟩ := props_object hpc
  rw [h0] at hf1
  cases hf1
  have notin : ∀ {z}, Scalar s0 z → ¬ (G z ∨ z = a) := fun {z} hz hgz => by
    obtain ⟨qz, j1, j2⟩ := scalar_shape S hz
    rcases hgz with hgz | rfl
    · obtain ⟨r, j3, j4⟩ := leaf_involves S j1 j2 (hp z hgz)
      rw [h0] at j3
      cases j3
      exact j4
    · rw [h0] at j1
      cases j1
      exact j2
  have ux : Unw s p.base := hparts _ ⟨_, h0, .property hf2⟩
  -- the owner of the overridden property is finished
  have hnd := (hd.properties f g h0 hg1 _ hf2 _ hg2 rfl).2.2.2
  have desc : InvolvesDeeply s0 a c := by
    have up : ∀ {z w}, Descends s0 z w → z ≠ w → InvolvesDeeply s0 z w := fun {z w} hz => by
      induction hz with
      | refl => exact fun h => absurd rfl h
      | @step y' z' h1 h2 ih =>
        intro _
        by_cases e : z = y'
        · subst e; exact .one (.inr h2)
        · exact .more (ih e) (.inr h2)
    refine up (line_descends hl c (by simp [hc])) fun e => ?_
    subst e
    exact line_fresh hl hc
  have trans : ∀ {z w v}, InvolvesDeeply s0 z w → InvolvesDeeply s0 w v → InvolvesDeeply s0 z v := fun h1 h2 => by
    induction h2 with
    | one h => exact .more h1 h
    | more _ h ih => exact .more ih h
  have ngc : ¬ (G c ∨ c = a) := fun hgc => hnd (by
    rcases hgc with hgc | rfl
    · exact trans (hp c hgc) desc
    · exact desc)
  have uc := (hfix c hc).1
  obtain ⟨bc0, bc, hbc0, hbc, _, hcr, _⟩ := hi.doneAt uc ngc
  obtain ⟨bc0', j1, j2⟩ := line_plain hl c (by simp [hc])
  rw [hbc0] at j1
  cases j1
  have uy : Unw s q.base := hcr j2 _ ⟨_, hg1, .property hg2⟩
  obtain ⟨bx0, bx, hbx0, hbx, _, _, hxl⟩ := hi.doneAt ux (notin hsx)
  obtain ⟨by0, by', hby0, hby, hyv, _, hyl⟩ := hi.doneAt uy (notin hsy)
  obtain ⟨lx, hlx, hcx⟩ := id hsx
  obtain ⟨ly, hly, hcy⟩ := id hsy
  have ex : LeafAt s0 s p.base lx := scalar_leafAt hsx hlx (scalar_shape S hsx) ((hxl lx hlx).1 fun ⟨c', y', i1, _, i2⟩ => i2 (.inr (Over.unique S i1 h).1))
  have ey : ∃ Ly, Cov s0 q.base Ly ∧ LeafAt s0 s q.base Ly := by
    by_cases hov : ∃ c' z, Over s0 c' q.base z
    · obtain ⟨c', z, hov⟩ := hov
      have : c' = c := by
        obtain ⟨_, k', p', _, _, i2, _, i4, _⟩ := hov
        exact (S.owner i2 hpc i4).1
      subst this
      obtain ⟨_, _, L, i1, i2⟩ := hi.ovs _ _ _ hov uc ngc
      exact ⟨L, i1, i2⟩
    · refine ⟨ly, fun d => ⟨fun hd => ⟨_, ly, .refl _, hly, hd⟩, fun ⟨z, lz, i1, i2, i3⟩ => ?_⟩,
        scalar_leafAt hsy hly (scalar_shape S hsy) ((hyl ly hly).1 fun ⟨c', y', i1, _⟩ => hov ⟨c', y', i1⟩)⟩
      rw [covers_self (fun c' z hz => hov ⟨c', z, hz⟩) i1] at i2
      cases Line.unique i2 hly
      exact i3
  obtain ⟨Ly, hLy, ey⟩ := ey
  have hcov : Cov s0 p.base (lx ++ Ly) := fun d => by
    rw [List.mem_append]
    constructor
    · rintro (hd | hd)
      · exact ⟨_, lx, .refl _, hlx, hd⟩
      · obtain ⟨z, lz, i1, i2, i3⟩ := (hLy d).1 hd
        exact ⟨z, lz, .step h i1, i2, i3⟩
    · rintro ⟨z, lz, i1, i2, i3⟩
      cases i1 with
      | refl => cases Line.unique i2 hlx; exact .inl i3
      | step i4 i5 =>
        rw [(Over.unique S i4 h).2] at i5
        exact .inr ((hLy d).2 ⟨z, lz, i5, i2, i3⟩)
  refine ⟨ux, notin hsx, ?_, lx, Ly, hcov, ex, ey, fun d hd d' hd' => ?_⟩
  · obtain ⟨q0, qx, _, i2, _, i4, i5⟩ := id ex
    obtain ⟨_, qy, _, i7, _, i9, _⟩ := id ey
    exact ⟨bx, by', qx, qy, hbx, hby, by simpa [St.shapeAt, hbx] using i2, by simpa [St.shapeAt, hby] using i7, hyv, i5.restricting hcx, i9⟩
  · obtain ⟨z, lz, i1, i2, i3⟩ := (hLy d').1 hd'
    exact (S.overScalar h i1).2.2 lx lz hlx i2 d hd d' i3

/-- A type that is built on another one and is no alias is finished. -/
theorem heir_close (S : Setup s0) {n : Nat} {r : Addr} {b0 : Base} (hi : Inv s0 (fun x => G x ∨ x = a) s) (hg : ¬ G a) (hp : ∀ g, G g → InvolvesDeeply s0 g a)
    (h0 : s0.base a = some b0) (hal : b0.alias = none) (hbt : BuiltOn s0 a t) (hu : Unw s t) (hparts : ∀ y, Refers s0 a y → Unw s y)
    (h : inherit n a t s = (.ok r, s')) : r = a ∧ Goes s0 G a s s' := by
  obtain ⟨hne, c, hc, hcv, hline⟩ := hi.target S (.inr rfl) (fun g hg => hg.elim (fun h => .inr (hp g h)) .inl) hbt hu
  obtain ⟨b, hb, hbu, hbv, hbs, _, _, hbd⟩ := hi.opened (.inr rfl) h0
  obtain ⟨q, hq, hq0⟩ := S.shapeAt h0
  obtain ⟨bt0, ht0⟩ := S.next a t (.inr hbt)
  obtain ⟨qt, _, hqt⟩ := S.shapeAt ht0
  have hkd := S.straight.kinds _ _ q qt hbt hq0 hqt
  obtain ⟨l, hl, hd⟩ := S.straight.line a b0 h0
  have hl' : ∃ lt, l = a :: lt ∧ Line s0 t lt := by
    cases hl with
    | root h1 h2 h3 h4 => exact (BuiltOn.notRoot h1 h2 h3 h4 hbt).elim
    | «alias» h1 h2 => rw [h0] at h1; cases h1; rw [hal] at h2; cases h2
    | on h1 h2 h3 h4 => exact ⟨_, rfl, BuiltOn.unique hbt h3 ▸ h4⟩
  obtain ⟨lt, rfl, hlt⟩ := hl'
  obtain ⟨m1, m2⟩ := hline lt hlt
  obtain ⟨_, u, _, hu1, _⟩ := id m1
  have hu2 : c.shape = some u := by simpa [St.shapeAt, hc] using hu1
  obtain ⟨m3, m4⟩ := eff_kind m1 hqt hu1
  obtain ⟨hlne, hall⟩ := S.lineKind hlt hqt
  have hla : Line s0 a (a :: lt) := .on h0 hal hbt hlt
  have ready := fun {x y} (h : Over s0 a x y) => override_ready S hi hp hq0 hla m2 hparts h
  obtain ⟨e, k1, k0, b', q', k2, k3, k4, k5, k6⟩ := inherit_taken S hne.symm hq0 hb (hbs.trans hq) hc hu2 hcv (m3.trans hkd.symm) (S.straight.heirs a b0 t q h0 hal hbt hq)
    (fun i h => hi.pmaps i fun x m _ => .inr (mine_inj S m.1 h)) (fun i h => hi.ppmaps i fun x m _ => .inr (pmine_inj S m.1 h))
    (fun v e hve => by
      have := S.straight.members a b0 t v e h0 hal hbt (hve ▸ hq)
      simpa [St.slice, hi.slices] using this) m4 hla (fun x y h => (ready h).2.2.1) hd hlne
    (fun c hc => by obtain ⟨r, e1, e2⟩ := hall c hc; exact ⟨r, e1, e2.trans hkd.symm⟩) h
  subst e
  have hnr : ¬ Root s0 r := fun h => h t hbt
  have ua : Unw s' r := ⟨b', k2, k3.unwrapped.trans hbu⟩
  refine ⟨rfl, hi.close S hg (k1.mono (fun i h => ⟨h, hnr⟩) (fun i h => ⟨h, hnr⟩) fun _ h => h) h0 k2 (k3.unwrapped.trans hbu) (k3.visited.trans hbv)
    (fun i h => hi.defs r b i hb (k3.facetDefs ▸ h)) (fun y hy => BuiltOn.unique hbt hy ▸ hu) (fun _ => hparts) (fun l hl => ?_) (fun x y h => ?_), ua, fun x ⟨d, h1, h2⟩ => ?_⟩
  · have := Line.unique hl (.on h0 hal hbt hlt)
    subst this
    refine ⟨⟨q, q', hq0, shapeAt_of k2 k4, k5, k6⟩, fun c hc hne => ?_⟩
    rcases List.mem_cons.1 hc with rfl | hc
    · exact absurd rfl hne
    · exact m2 c hc
  · obtain ⟨j1, j2, _, lx, ly, j3, j4, j5, j6⟩ := ready h
    refine ⟨j1, j2, lx ++ ly, j3, ?_⟩
    obtain ⟨bx, b1, tx, uy, sh, z1, z2, z3, z4, z5, z6, _⟩ := k0 x y h
    obtain ⟨q0, qx, i1, i2, i3, _, i5⟩ := j4
    obtain ⟨_, qy, _, i7, _, _, i8⟩ := j5
    rw [shapeAt_of z1 z2] at i2
    cases i2
    rw [z3] at i7
    cases i7
    have hres : Restricting tx := by
      obtain ⟨_, _, tx', _, w1, _, w2, _, _, w3, _⟩ := (ready h).2.2.1
      rw [z1] at w1
      cases w1
      rw [z2] at w2
      cases w2
      exact w3
    obtain ⟨y1, y2⟩ := leaf_merge i5 hres i8 j6 z4
    exact ⟨q0, sh, i1, shapeAt_of z5 z6, (kind_leafInherit z4).trans i3, y1, y2⟩
  · by_cases hx : x = r
    · subst hx; exact ua
    · obtain ⟨d', j1, j2⟩ := k1.vary x hx d h1
      exact ⟨d', j1, j2.unwrapped.trans h2⟩

theorem unwrap_step (S : Setup s0) {n : Nat} (ih : RecOK s0 (unwrap n)) {r : Addr} {b0 : Base} (hi : Inv s0 G s) (h0 : s0.base a = some b0)
    (hp : ∀ g, G g → InvolvesDeeply s0 g a) (h : unwrap (n + 1) a s = (.ok r, s')) : r = a ∧ Goes s0 G a s s' := by
  obtain ⟨b, hb, hbv, hnode⟩ := hi.node a b0 h0
  simp only [unwrap] at h
  rw [M.bind_of_ok (show Heap.getBase a s = (.ok b, s) by simp [Heap.getBase, hb])] at h
  cases hsh : b.shape with
  | none => simp only [hsh] at h; cases h
  | some sh =>
    simp only [hsh] at h
    cases hu : b.unwrapped with
    | true =>
      simp only [hu, if_true] at h
      obtain ⟨rfl, rfl⟩ := M.ret_ok.1 h
      exact ⟨rfl, hi, ⟨b, hb, hu⟩, fun _ h => h⟩
    | false =>
      simp only [hu, Bool.false_eq_true, if_false] at h
      have hraw : b = b0 ∧ ¬ G a := by
        cases hnode with
        | raw _ e2 e3 => exact ⟨e3, e2⟩
        | opened e1 => rw [hu] at e1; cases e1
        | done e1 => rw [hu] at e1; cases e1
      obtain ⟨rfl, hg⟩ := hraw
      rw [M.bind_of_ok (upd_run _ _ _)] at h
      have hi1 := hi.open S hb hu
      have hb1 := base_upd_self (f := fun y => { y with unwrapped := true }) hb
      have keep1 : ∀ x, Unw s x → Unw { s with bases := s.bases.modify a fun y => { y with unwrapped := true } } x := fun x ⟨c, h1, h2⟩ => by
        by_cases hx : x = a
        · subst hx; exact ⟨_, hb1, rfl⟩
        · exact ⟨c, by rw [base_upd_ne hx]; exact h1, h2⟩
      generalize ({ s with bases := s.bases.modify a fun y => { y with unwrapped := true } } : St) = s1 at h hi1 hb1 keep1
      have hp1 : ∀ g, (G g ∨ g = a) → g = a ∨ InvolvesDeeply s0 g a := fun g hg => hg.elim (fun h => .inr (hp g h)) .inl
      cases hal : b.alias with
      | some t =>
        simp only [hal] at h
        replace h := M.bind_ok.1 h
        obtain ⟨us, s2, h2, h⟩ := h
        obtain ⟨e, g1, g2, g3⟩ := rec_part ih S (.inr rfl) hp1 hi1 (.inr (.alias h0 hal)) h2
        subst e
        replace h := M.bind_ok.1 h
        obtain ⟨_, s3, h3, h⟩ := h
        cases h3
        obtain ⟨k0, k1, k2, k3⟩ := alias_close (t := us) (s := { s2 with shapes := s2.shapes ++ [a] }) S (g1.same rfl rfl rfl rfl rfl) hg hp h0 hal g2 h
        exact ⟨k0, k1, k2, fun x hx => k3 x (g3 x (keep1 x hx))⟩
      | none =>
        simp only [hal] at h
        replace h := M.bind_ok.1 h
        obtain ⟨o, s2, h2, h⟩ := h
        have parents : Inv s0 (fun x => G x ∨ x = a) s2 ∧ (∀ x, Unw s1 x → Unw s2 x) ∧
            ((o = none ∧ Root s0 a) ∨ ∃ t, o = some t ∧ BuiltOn s0 a t ∧ Unw s2 t) := by
          unfold unwrapParents at h2
          obtain ⟨c1, s1', h20, h21⟩ := M.bind_ok.1 h2
          clear h2
          have h2 := h21
          clear h21
          simp only [Heap.getBase, hb1, Prod.mk.injEq, Out.ok.injEq] at h20
          obtain ⟨rfl, rfl⟩ := h20
          simp only at h2
          cases hlk : b.link with
          | some k =>
            simp only [hlk] at h2
            rw [hi1.dts] at h2
            cases hx : (s0.dts[k]?).bind (·.shape) with
            | none => rw [hx] at h2; cases h2
            | some x =>
              rw [hx] at h2
              obtain ⟨d, hd1, hd2⟩ := Option.bind_eq_some_iff.1 hx
              have hbt : BuiltOn s0 a x := .included h0 hal hlk hd1 hd2
              simp only at h2
              replace h2 := M.bind_ok.1 h2
              obtain ⟨us, s3, h3, h2⟩ := h2
              obtain ⟨e, g1, g2, g3⟩ := rec_part ih S (.inr rfl) hp1 hi1 (.inr hbt) h3
              subst e
              rw [M.bind_of_ok (upd_run _ _ _)] at h2
              cases h2
              obtain ⟨c, hc, hcu, _⟩ := g1.opened (.inr rfl) h0
              have hc' := base_upd_self (f := fun y => { y with link := none }) hc
              have keep : ∀ x, Unw s3 x → Unw { s3 with bases := s3.bases.modify a fun y => { y with link := none } } x := fun x ⟨c', h1, h2⟩ => by
                by_cases hx : x = a
                · subst hx; exact ⟨_, hc', hcu⟩
                · exact ⟨c', by rw [base_upd_ne hx]; exact h1, h2⟩
              exact ⟨g1.tweak S (.inr rfl) hc (Touch.upd a _ s3) hc' ⟨rfl, rfl, rfl⟩ rfl rfl rfl, fun x hx => keep x (g3 x hx), .inr ⟨us, rfl, hbt, keep us g2⟩⟩
          | none =>
            simp only [hlk] at h2
            have hsl : s1.slice b.inherits = s0.slice b.inherits := by cases b.inherits <;> simp [St.slice, hi1.slices]
            have hroot : s0.slice b.inherits = [] → Root s0 a := fun e y hy => BuiltOn.notRoot h0 hal hlk e hy
            obtain ⟨l, hl, _⟩ := S.straight.line a b h0
            have hcase : s0.slice b.inherits = [] ∨ ∃ p, s0.slice b.inherits = [p] := by
              cases hl with
              | root h1 _ _ h4 => rw [h0] at h1; cases h1; exact .inl h4
              | «alias» h1 h2 => rw [h0] at h1; cases h1; rw [hal] at h2; cases h2
              | on _ _ h3 _ =>
                cases h3 with
                | «alias» h1 h2 => rw [h0] at h1; cases h1; rw [hal] at h2; cases h2
                | included h1 _ h2 => rw [h0] at h1; cases h1; rw [hlk] at h2; cases h2
                | parent h1 _ _ h2 => rw [h0] at h1; cases h1; exact .inr ⟨_, h2⟩
            rw [hsl] at h2
            rcases hcase with he | ⟨p, he⟩
            · rw [he] at h2
              have h2' : o = none ∧ s2 = s1 := by cases hin : b.inherits <;> rw [hin] at h2 <;> cases h2 <;> exact ⟨rfl, rfl⟩
              obtain ⟨rfl, rfl⟩ := h2'
              exact ⟨hi1, fun _ h => h, .inl ⟨rfl, hroot he⟩⟩
            · have hbt : BuiltOn s0 a p := .parent h0 hal hlk he
              cases hin : b.inherits with
              | none => rw [hin] at he; cases he
              | some i =>
                rw [he, hin] at h2
                simp only at h2
                replace h2 := M.bind_ok.1 h2
                obtain ⟨us, s3, h3, h2⟩ := h2
                obtain ⟨e, g1, g2, g3⟩ := rec_part ih S (.inr rfl) hp1 hi1 (.inr hbt) h3
                subst e
                simp only [List.length_nil, unwrapMoreParents] at h2
                replace h2 := M.bind_ok.1 h2
                obtain ⟨_, s4, h4, h2⟩ := h2
                cases h4
                cases h2
                refine ⟨g1.same rfl (modify_same fun m hm => set_same ?_) rfl rfl rfl, g3, .inr ⟨us, rfl, hbt, g2⟩⟩
                rw [g1.slices] at hm
                have : m = [us] := by simpa [St.slice, hin, hm] using he
                rw [this]
                rfl
        obtain ⟨p1, p2, p3⟩ := parents
        replace h := M.bind_ok.1 h
        obtain ⟨_, s3, h3, h⟩ := h
        obtain ⟨t1, t2, t3⟩ := unwrapTarget_goes ih S (.inr rfl) hp1 h0 p1 h3
        obtain ⟨b3, hb3, _, _, _, _, _, hd3⟩ := t1.opened (.inr rfl) h0
        rw [M.bind_of_ok (show Heap.getBase a s3 = (.ok _, s3) by simp [Heap.getBase, hb3]; rfl)] at h
        replace h := M.bind_ok.1 h
        obtain ⟨_, s4, h4, h⟩ := h
        have e4 : s4 = s3 := by
          cases hfd : b3.facetDefs with
          | none => rw [hfd] at h4; cases h4; rfl
          | some i =>
            rw [hfd] at h4
            have hm : s3.props (some i) = [] := by
              have k1 : s3.pmaps[i]? = s0.pmaps[i]? := t1.pmaps i fun x m _ => by
                have := S.share.maps _ _ i (objectAt_used S m.1) (.facets h0 (by rw [← hd3]; exact hfd))
                cases this
              have k2 := S.straight.noFacets a b h0
              rw [← hd3, hfd] at k2
              rw [← k2]
              simp [St.props, k1]
            cases n with
            | zero => simp [whenSome, unwrapFacetDefs, M.diverge] at h4
            | succ n =>
              simp only [whenSome, unwrapFacetDefs, hm, List.getElem?_nil] at h4
              cases h4
              rfl
        subst e4
        unfold unwrapFinish at h
        rcases p3 with ⟨rfl, hr⟩ | ⟨t, rfl, hbt, hut⟩
        · cases h
          obtain ⟨k1, k2⟩ := root_close S t1 hg h0 hr t3
          exact ⟨rfl, k1.same rfl rfl rfl rfl rfl, k2, fun x hx => t2 x (p2 x (keep1 x hx))⟩
        · replace h := M.bind_ok.1 h
          obtain ⟨r', s5, h5, h⟩ := h
          cases h
          obtain ⟨rfl, k1, k2, k3⟩ := heir_close S t1 hg hp h0 hal hbt (t2 t hut) t3 h5
          exact ⟨rfl, k1.same rfl rfl rfl rfl rfl, k2, fun x hx => k3 x (t2 x (p2 x (keep1 x hx)))⟩


/-- Unwrapping takes up the lines. -/
theorem unwrap_goes (S : Setup s0) : ∀ n, RecOK s0 (unwrap n)
  | 0 => fun _ _ _ h => by simp [unwrap, M.diverge] at h
  | n + 1 => fun hi ⟨_, h0⟩ hp h => unwrap_step S (unwrap_goes S n) hi h0 hp h

end GoRaml.Mean
