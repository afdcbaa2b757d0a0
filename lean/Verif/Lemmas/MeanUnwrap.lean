import Verif.Lemmas.MeanInherit

/-!
# What the types of a straight model mean: unwrapping
-/

namespace GoRaml.Mean

open GoRaml GoRaml.Spec GoRaml.Kin

variable {s0 s s' : St} {a t : Addr} {G : Addr → Prop}

/-- A type that is built on no other. -/
def Root (s0 : St) (x : Addr) : Prop := ∀ y, ¬ BuiltOn s0 x y

/-- The type is marked as unwrapped. -/
def Unw (s : St) (x : Addr) : Prop := ∃ b, s.base x = some b ∧ b.unwrapped = true

/-- The type will not change any more. -/
def Fixed (s0 s : St) (G : Addr → Prop) (c : Addr) : Prop := Unw s c ∧ (Root s0 c ∨ ¬ G c)

/-- The type is that of a property of a finished type that overrides another one. -/
def Sealed (s0 s : St) (G : Addr → Prop) (x : Addr) : Prop := ∃ c y, Over s0 c x y ∧ Unw s c ∧ ¬ G c

/-- A scalar type that has taken up these declarations. -/
def LeafAt (s0 s : St) (x : Addr) (L : List Addr) : Prop :=
  ∃ q0 q, s0.shapeAt x = some q0 ∧ s.shapeAt x = some q ∧ Kind q = Kind q0 ∧ Plain q ∧ LeafEff s0 L q

theorem LeafAt.eff {x : Addr} {L : List Addr} (h : LeafAt s0 s x L) : Eff s0 s x L := by
  obtain ⟨q0, q, h1, h2, h3, h4, h5⟩ := h
  exact ⟨q0, q, h1, h2, h3, (shapeEff_leaf h4).2 h5⟩

/-- What has become of a type; `G` are the types that are being unwrapped. -/
inductive Node (s0 s : St) (G : Addr → Prop) (x : Addr) (b0 b : Base) : Prop where
  | raw : b.unwrapped = false → ¬ G x → b = b0 → Node s0 s G x b0 b
  | opened : b.unwrapped = true → G x → b.shape = b0.shape → b.alias = b0.alias → b.inherits = b0.inherits → b.facetDefs = b0.facetDefs → Node s0 s G x b0 b
  | done : b.unwrapped = true → ¬ G x → (∀ y, BuiltOn s0 x y → Unw s y) → (b0.alias = none → ∀ y, Refers s0 x y → Unw s y) →
      (∀ l, Line s0 x l → (¬ Sealed s0 s G x → Eff s0 s x l) ∧ ∀ c ∈ l, Fixed s0 s G c) → Node s0 s G x b0 b

/-- The map of properties at `i` belongs to the declaration of `a`, which is built on another type. -/
def Mine (s0 : St) (a : Addr) (i : Nat) : Prop := (objectAt s0 a).properties = some i ∧ ¬ Root s0 a

/-- The same for pattern properties. -/
def PMine (s0 : St) (a : Addr) (i : Nat) : Prop := (objectAt s0 a).patternProperties = some i ∧ ¬ Root s0 a

/-- The state while the types `G` are being unwrapped. -/
structure Inv (s0 : St) (G : Addr → Prop) (s : St) : Prop where
  node : ∀ x b0, s0.base x = some b0 → ∃ b, s.base x = some b ∧ b.visited = false ∧ Node s0 s G x b0 b
  len : s.bases.length = s0.bases.length
  slices : s.slices = s0.slices
  dts : s.dts = s0.dts
  defs : ∀ x b i, s.base x = some b → b.facetDefs = some i → ∃ y c, s0.base y = some c ∧ c.facetDefs = some i
  pmaps : ∀ i, (∀ x, Mine s0 x i → Unw s x → G x) → s.pmaps[i]? = s0.pmaps[i]?
  ppmaps : ∀ i, (∀ x, PMine s0 x i → Unw s x → G x) → s.ppmaps[i]? = s0.ppmaps[i]?
  ovs : ∀ c x y, Over s0 c x y → Unw s c → ¬ G c → Unw s x ∧ ¬ G x ∧ ∃ L, Cov s0 x L ∧ LeafAt s0 s x L

theorem objectAt_used (S : Setup s0) {x : Addr} {i : Nat} (h : (objectAt s0 x).properties = some i) : UsedFor s0 (.properties x) i := by
  unfold objectAt at h
  split at h
  · rename_i f hf
    unfold St.shapeAt at hf
    obtain ⟨b, h1, h2⟩ := Option.bind_eq_some_iff.1 hf
    exact .properties h1 h2 h
  · cases h

theorem objectAt_patterns {x : Addr} {i : Nat} (h : (objectAt s0 x).patternProperties = some i) : PatternsIn s0 x i := by
  unfold objectAt at h
  split at h
  · rename_i f hf
    unfold St.shapeAt at hf
    obtain ⟨b, h1, h2⟩ := Option.bind_eq_some_iff.1 hf
    exact ⟨b, f, h1, h2, h⟩
  · cases h

theorem objectAt_shape {x : Addr} {i : Nat} (h : (objectAt s0 x).properties = some i) : ∃ f, s0.shapeAt x = some (.object f) ∧ f.properties = some i := by
  unfold objectAt at h
  split at h
  · rename_i f hf
    exact ⟨f, hf, h⟩
  · cases h

theorem mine_inj (S : Setup s0) {x y : Addr} {i : Nat} (h : (objectAt s0 x).properties = some i) (k : (objectAt s0 y).properties = some i) : x = y := by
  have := S.share.maps _ _ i (objectAt_used S h) (objectAt_used S k)
  cases this
  rfl

theorem pmine_inj (S : Setup s0) {x y : Addr} {i : Nat} (h : (objectAt s0 x).patternProperties = some i) (k : (objectAt s0 y).patternProperties = some i) : x = y :=
  S.share.patterns _ _ i (objectAt_patterns h) (objectAt_patterns k)

theorem Inv.base0 (hi : Inv s0 G s) {x : Addr} {b : Base} (h : s.base x = some b) : ∃ b0, s0.base x = some b0 := by
  have : x < s.bases.length := by
    unfold St.base at h
    exact (List.getElem?_eq_some_iff.1 h).1
  rw [hi.len] at this
  exact ⟨s0.bases[x], by unfold St.base; exact List.getElem?_eq_getElem this⟩

/-- The invariant does not see the other parts of the state. -/
theorem Inv.same (hi : Inv s0 G s) (h1 : s'.bases = s.bases) (h2 : s'.slices = s.slices) (h3 : s'.dts = s.dts) (h4 : s'.pmaps = s.pmaps) (h5 : s'.ppmaps = s.ppmaps) :
    Inv s0 G s' := by
  have hb : ∀ x, s'.base x = s.base x := fun x => by simp [St.base, h1]
  have hu : ∀ x, Unw s' x ↔ Unw s x := fun x => by simp [Unw, hb]
  have hs : ∀ x, s'.shapeAt x = s.shapeAt x := fun x => by simp [St.shapeAt, hb]
  refine ⟨fun x b0 h0 => ?_, by rw [h1]; exact hi.len, h2.trans hi.slices, h3.trans hi.dts, fun x b i h => hi.defs x b i (hb x ▸ h),
    fun i h => by rw [h4]; exact hi.pmaps i fun x m u => h x m ((hu x).2 u), fun i h => by rw [h5]; exact hi.ppmaps i fun x m u => h x m ((hu x).2 u), fun c x y k1 k2 k3 => by
      obtain ⟨j1, j2, L, j3, q0, q, j4, j5, j6⟩ := hi.ovs c x y k1 ((hu c).1 k2) k3
      exact ⟨(hu x).2 j1, j2, L, j3, q0, q, j4, (hs x).trans j5, j6⟩⟩
  obtain ⟨b, k1, k2, k3⟩ := hi.node x b0 h0
  refine ⟨b, (hb x).trans k1, k2, ?_⟩
  cases k3 with
  | raw e1 e2 e3 => exact .raw e1 e2 e3
  | opened e1 e2 e3 e4 e5 e6 => exact .opened e1 e2 e3 e4 e5 e6
  | done e1 e2 e3 e4 e5 =>
    refine .done e1 e2 (fun y h => (hu y).2 (e3 y h)) (fun h y k => (hu y).2 (e4 h y k)) fun l hl => ?_
    obtain ⟨m0, m5⟩ := e5 l hl
    refine ⟨fun hns => ?_, fun c hc => ⟨(hu c).2 (m5 c hc).1, (m5 c hc).2⟩⟩
    obtain ⟨q0, q, m1, m2, m3, m4⟩ := m0 fun ⟨c, y, k1, k2, k3⟩ => hns ⟨c, y, k1, (hu c).2 k2, k3⟩
    exact ⟨q0, q, m1, (hs x).trans m2, m3, m4.maps (fun _ _ _ _ => by rw [h4]) fun _ _ _ _ => by rw [h5]⟩

/-- A type that will not change keeps what it has taken up. -/
theorem Eff.frame (S : Setup s0) {V : Addr → Prop} {y : Addr} {l : List Addr} (ho : Only (Mine s0 a) (PMine s0 a) V a s s') (hy : y ≠ a) (hv : ¬ V y) (ha : ¬ (Unw s a ∧ ¬ G a))
    (he : Eff s0 s y l) (hl : ∀ c ∈ l, Fixed s0 s G c) : Eff s0 s' y l := by
  obtain ⟨q0, q, m1, m2, m3, m4⟩ := he
  refine ⟨q0, q, m1, by rw [St.shapeAt, ho.others y hy hv]; exact m2, m3, m4.maps (fun c hc i hi => ho.pmaps i fun h => ?_) fun c hc i hi => ho.ppmaps i fun h => ?_⟩
  · have e := mine_inj S hi h.1
    subst e
    exact (hl c hc).2.elim h.2 fun k => ha ⟨(hl c hc).1, k⟩
  · have e := pmine_inj S hi h.1
    subst e
    exact (hl c hc).2.elim h.2 fun k => ha ⟨(hl c hc).1, k⟩

theorem LeafAt.frame {x : Addr} {L : List Addr} (h : LeafAt s0 s x L) (hs : s'.base x = s.base x) : LeafAt s0 s' x L := by
  obtain ⟨q0, q, h1, h2, h3⟩ := h
  exact ⟨q0, q, h1, by rw [St.shapeAt, hs]; exact h2, h3⟩

/-- A type is opened. -/
theorem Inv.open (S : Setup s0) (hi : Inv s0 G s) {b : Base} (hb : s.base a = some b) (hu : b.unwrapped = false) :
    Inv s0 (fun x => G x ∨ x = a) { s with bases := s.bases.modify a fun y => { y with unwrapped := true } } := by
  generalize hs : ({ s with bases := s.bases.modify a fun y => { y with unwrapped := true } } : St) = s'
  have ht : Touch a s s' := hs ▸ Touch.upd a _ s
  have hb' : s'.base a = some { b with unwrapped := true } := by rw [← hs]; exact base_upd_self hb
  have nu : ¬ Unw s a := fun ⟨c, h1, h2⟩ => by rw [hb] at h1; cases h1; rw [hu] at h2; cases h2
  have keep : ∀ x, Unw s x → Unw s' x := fun x ⟨c, h1, h2⟩ => by
    by_cases hx : x = a
    · subst hx; exact ⟨_, hb', rfl⟩
    · exact ⟨c, by rw [ht.others x hx]; exact h1, h2⟩
  have back : ∀ x, x ≠ a → Unw s' x → Unw s x := fun x hx ⟨c, h1, h2⟩ => ⟨c, by rw [← ht.others x hx]; exact h1, h2⟩
  refine ⟨fun x b0 h0 => ?_, ht.len.trans hi.len, ht.slices.trans hi.slices, ht.dts.trans hi.dts, fun x c i h => ?_, fun i h => ?_, fun i h => ?_, fun c x y k1 k2 k3 => ?_⟩
  · obtain ⟨c, k1, k2, k3⟩ := hi.node x b0 h0
    by_cases hx : x = a
    · subst hx
      rw [hb] at k1
      cases k1
      refine ⟨_, hb', k2, ?_⟩
      cases k3 with
      | raw e1 e2 e3 => subst e3; exact .opened rfl (.inr rfl) rfl rfl rfl rfl
      | opened e1 => rw [hu] at e1; cases e1
      | done e1 => rw [hu] at e1; cases e1
    · refine ⟨c, by rw [ht.others x hx]; exact k1, k2, ?_⟩
      cases k3 with
      | raw e1 e2 e3 => exact .raw e1 (fun h => h.elim e2 hx) e3
      | opened e1 e2 e3 e4 e5 e6 => exact .opened e1 (.inl e2) e3 e4 e5 e6
      | done e1 e2 e3 e4 e5 =>
        refine .done e1 (fun h => h.elim e2 hx) (fun y h => keep y (e3 y h)) (fun h y k => keep y (e4 h y k)) fun l hl => ?_
        obtain ⟨m1, m2⟩ := e5 l hl
        refine ⟨fun hns => Eff.frame S (V := fun _ => False) (.touch ht) hx (fun h => h) (fun h => nu h.1) (m1 fun ⟨c, y, j1, j2, j3⟩ => hns ⟨c, y, j1, keep c j2, fun g =>
          g.elim j3 fun e => nu (e ▸ j2)⟩) m2, fun c hc => ⟨keep c (m2 c hc).1, (m2 c hc).2.imp_right fun h g => g.elim h fun e => nu (e ▸ (m2 c hc).1)⟩⟩
  · by_cases hx : x = a
    · subst hx
      rw [hb'] at h
      cases h
      exact fun h => hi.defs x b i hb h
    · exact fun k => hi.defs x c i (by rw [← ht.others x hx]; exact h) k
  · rw [ht.pmaps]
    refine hi.pmaps i fun x m u => ?_
    exact (h x m (keep x u)).elim id fun e => absurd (e ▸ u) nu
  · rw [ht.ppmaps]
    refine hi.ppmaps i fun x m u => ?_
    exact (h x m (keep x u)).elim id fun e => absurd (e ▸ u) nu
  · have hca : c ≠ a := fun e => k3 (.inr e)
    obtain ⟨j1, j2, L, j3, j4⟩ := hi.ovs c x y k1 (back c hca k2) fun g => k3 (.inl g)
    have hxa : x ≠ a := fun e => nu (e ▸ j1)
    exact ⟨keep x j1, fun g => g.elim j2 hxa, L, j3, j4.frame (ht.others x hxa)⟩

/-- A type is finished. -/
theorem Inv.close (S : Setup s0) (hi : Inv s0 (fun x => G x ∨ x = a) s) (hg : ¬ G a) (ho : Only (Mine s0 a) (PMine s0 a) (fun x => ∃ y, Over s0 a x y) a s s') {b0 b : Base}
    (h0 : s0.base a = some b0)
    (hb : s'.base a = some b) (hu : b.unwrapped = true) (hv : b.visited = false) (hd : ∀ i, b.facetDefs = some i → ∃ y c, s0.base y = some c ∧ c.facetDefs = some i)
    (h1 : ∀ y, BuiltOn s0 a y → Unw s y) (h2 : b0.alias = none → ∀ y, Refers s0 a y → Unw s y)
    (h3 : ∀ l, Line s0 a l → Eff s0 s' a l ∧ ∀ c ∈ l, c ≠ a → Fixed s0 s (fun x => G x ∨ x = a) c)
    (h4 : ∀ x y, Over s0 a x y → Unw s x ∧ ¬ (G x ∨ x = a) ∧ ∃ L, Cov s0 x L ∧ LeafAt s0 s' x L) : Inv s0 G s' := by
  have ua : Unw s' a := ⟨b, hb, hu⟩
  have keep : ∀ x, Unw s x → Unw s' x := fun x ⟨c, h1, h2⟩ => by
    by_cases hx : x = a
    · subst hx; exact ua
    · obtain ⟨c', k1, k2⟩ := ho.vary x hx c h1
      exact ⟨c', k1, k2.unwrapped.trans h2⟩
  have back : ∀ x, x ≠ a → Unw s' x → Unw s x := fun x hx ⟨c', h1, h2⟩ => by
    obtain ⟨c, k0⟩ := ho.back x hx c' h1
    obtain ⟨c'', k1, k2⟩ := ho.vary x hx c k0
    rw [h1] at k1
    cases k1
    exact ⟨c, k0, k2.unwrapped.symm.trans h2⟩
  have fix : ∀ c, Fixed s0 s (fun x => G x ∨ x = a) c → Fixed s0 s' G c := fun c h => ⟨keep c h.1, h.2.imp_right fun h g => h (.inl g)⟩
  have unsealed : ∀ x, ¬ Sealed s0 s' G x → ¬ Sealed s0 s (fun x => G x ∨ x = a) x := fun x hns ⟨c, y, j1, j2, j3⟩ => hns ⟨c, y, j1, keep c j2, fun g => j3 (.inl g)⟩
  refine ⟨fun x c0 hx0 => ?_, ho.len.trans hi.len, ho.slices.trans hi.slices, ho.dts.trans hi.dts, fun x c i h => ?_, fun i h => ?_, fun i h => ?_, fun c x y k1 k2 k3 => ?_⟩
  · by_cases hx : x = a
    · subst hx
      rw [h0] at hx0
      cases hx0
      refine ⟨b, hb, hv, .done hu hg (fun y h => keep y (h1 y h)) (fun h y k => keep y (h2 h y k)) fun l hl => ?_⟩
      obtain ⟨m1, m2⟩ := h3 l hl
      refine ⟨fun _ => m1, fun c hc => ?_⟩
      by_cases hca : c = x
      · subst hca; exact ⟨ua, .inr hg⟩
      · exact fix c (m2 c hc hca)
    · obtain ⟨c, k1, k2, k3⟩ := hi.node x c0 hx0
      have shut : ¬ (∃ y, Over s0 a x y) → s'.base x = s.base x := ho.others x hx
      cases k3 with
      | raw e1 e2 e3 =>
        refine ⟨c, ?_, k2, .raw e1 (fun h => e2 (.inl h)) e3⟩
        rw [shut fun ⟨y, hy⟩ => ?_]
        · exact k1
        · obtain ⟨⟨d, j1, j2⟩, _⟩ := h4 x y hy
          rw [k1] at j1
          cases j1
          rw [e1] at j2
          cases j2
      | opened e1 e2 e3 e4 e5 e6 =>
        refine ⟨c, ?_, k2, .opened e1 (e2.resolve_right hx) e3 e4 e5 e6⟩
        rw [shut fun ⟨y, hy⟩ => (h4 x y hy).2.1 e2]
        exact k1
      | done e1 e2 e3 e4 e5 =>
        obtain ⟨c', j1, j2⟩ := ho.vary x hx c k1
        refine ⟨c', j1, j2.visited.trans k2, .done (j2.unwrapped.trans e1) (fun h => e2 (.inl h)) (fun y h => keep y (e3 y h)) (fun h y k => keep y (e4 h y k)) fun l hl => ?_⟩
        obtain ⟨m1, m2⟩ := e5 l hl
        exact ⟨fun hns => Eff.frame S ho hx (fun ⟨y, hy⟩ => hns ⟨a, y, hy, ua, hg⟩) (fun h => h.2 (.inr rfl)) (m1 (unsealed x hns)) m2, fun c hc => fix c (m2 c hc)⟩
  · by_cases hx : x = a
    · subst hx
      rw [hb] at h
      cases h
      exact fun h => hd i h
    · intro k
      obtain ⟨c', k0⟩ := ho.back x hx c h
      obtain ⟨c'', k1, k2⟩ := ho.vary x hx c' k0
      rw [h] at k1
      cases k1
      exact hi.defs x c' i k0 (k2.facetDefs ▸ k)
  · rw [ho.pmaps i fun m => hg (h a m ua)]
    exact hi.pmaps i fun x m u => .inl (h x m (keep x u))
  · rw [ho.ppmaps i fun m => hg (h a m ua)]
    exact hi.ppmaps i fun x m u => .inl (h x m (keep x u))
  · by_cases hca : c = a
    · subst hca
      obtain ⟨j1, j2, j3⟩ := h4 x y k1
      exact ⟨keep x j1, fun g => j2 (.inl g), j3⟩
    · obtain ⟨j1, j2, L, j3, j4⟩ := hi.ovs c x y k1 (back c hca k2) fun g => g.elim k3 hca
      refine ⟨keep x j1, fun g => j2 (.inl g), L, j3, j4.frame (ho.others x (fun e => j2 (.inr e)) fun ⟨y', hy'⟩ => hca (Over.unique S k1 hy').1)⟩

/-- A type that is being unwrapped still has its own declaration. -/
theorem Inv.opened (hi : Inv s0 G s) (ha : G a) {b0 : Base} (h0 : s0.base a = some b0) : ∃ b, s.base a = some b ∧ b.unwrapped = true ∧ b.visited = false ∧
    b.shape = b0.shape ∧ b.alias = b0.alias ∧ b.inherits = b0.inherits ∧ b.facetDefs = b0.facetDefs := by
  obtain ⟨b, k1, k2, k3⟩ := hi.node a b0 h0
  cases k3 with
  | raw e1 e2 => exact absurd ha e2
  | opened e1 e2 e3 e4 e5 e6 => exact ⟨b, k1, e1, k2, e3, e4, e5, e6⟩
  | done e1 e2 => exact absurd ha e2

/-- Other fields of a type that is being unwrapped may change. -/
theorem Inv.tweak (S : Setup s0) (hi : Inv s0 G s) (ha : G a) {b b' : Base} (hb : s.base a = some b) (ht : Touch a s s') (hb' : s'.base a = some b') (h1 : SameBase b b')
    (h2 : b'.shape = b.shape) (h3 : b'.alias = b.alias) (h4 : b'.inherits = b.inherits) : Inv s0 G s' := by
  have hu : ∀ x, Unw s' x ↔ Unw s x := fun x => by
    by_cases hx : x = a
    · subst hx
      simp only [Unw, hb, hb', Option.some.injEq, exists_eq_left', h1.unwrapped]
    · simp only [Unw, ht.others x hx]
  refine ⟨fun x b0 h0 => ?_, ht.len.trans hi.len, ht.slices.trans hi.slices, ht.dts.trans hi.dts, fun x c i h => ?_,
    fun i h => by rw [ht.pmaps]; exact hi.pmaps i fun x m u => h x m ((hu x).2 u), fun i h => by rw [ht.ppmaps]; exact hi.ppmaps i fun x m u => h x m ((hu x).2 u),
    fun c x y k1 k2 k3 => by
      obtain ⟨j1, j2, L, j3, j4⟩ := hi.ovs c x y k1 ((hu c).1 k2) k3
      exact ⟨(hu x).2 j1, j2, L, j3, j4.frame (ht.others x fun e => j2 (e ▸ ha))⟩⟩
  · obtain ⟨c, k1, k2, k3⟩ := hi.node x b0 h0
    by_cases hx : x = a
    · subst hx
      rw [hb] at k1
      cases k1
      refine ⟨b', hb', h1.visited.trans k2, ?_⟩
      cases k3 with
      | raw e1 e2 => exact absurd ha e2
      | opened e1 e2 e3 e4 e5 e6 => exact .opened (h1.unwrapped.trans e1) e2 (h2.trans e3) (h3.trans e4) (h4.trans e5) (h1.facetDefs.trans e6)
      | done e1 e2 => exact absurd ha e2
    · refine ⟨c, by rw [ht.others x hx]; exact k1, k2, ?_⟩
      cases k3 with
      | raw e1 e2 e3 => exact .raw e1 e2 e3
      | opened e1 e2 e3 e4 e5 e6 => exact .opened e1 e2 e3 e4 e5 e6
      | done e1 e2 e3 e4 e5 =>
        refine .done e1 e2 (fun y h => (hu y).2 (e3 y h)) (fun h y k => (hu y).2 (e4 h y k)) fun l hl => ?_
        obtain ⟨m1, m2⟩ := e5 l hl
        exact ⟨fun hns => Eff.frame S (V := fun _ => False) (.touch ht) hx (fun h => h) (fun h => h.2 ha) (m1 fun ⟨c, y, j1, j2, j3⟩ => hns ⟨c, y, j1, (hu c).2 j2, j3⟩) m2,
          fun c hc => ⟨(hu c).2 (m2 c hc).1, (m2 c hc).2⟩⟩
  · by_cases hx : x = a
    · subst hx
      rw [hb'] at h
      cases h
      exact fun k => hi.defs x b i hb (h1.facetDefs ▸ k)
    · exact fun k => hi.defs x c i (by rw [← ht.others x hx]; exact h) k

theorem shapeEff_self {q : Shape} {x : Addr} (h : s0.shapeAt x = some q) : ShapeEff s0 s0 [x] q := by
  cases q with
  | object f =>
    have ho : objectAt s0 x = f := by simp [objectAt, h]
    exact ⟨by simp [ho], by simp [ho, mergedLine, mergedProps, propsAt], fun c hc q hq hr => ⟨q, by rw [List.mem_singleton.1 hc] at hq; simpa [mergedLine, mergedProps] using hq, rfl, hr⟩,
      by simp [ho], by simp only [List.findSome?_cons, List.findSome?_nil, ho]; cases f.additionalProperties <;> rfl,
      fun i hi => ⟨x, by simp, by rw [ho]; exact hi⟩, fun i hi => ⟨x, by simp, by rw [ho]; exact hi⟩⟩
  | array f =>
    have ho : arrayAt s0 x = f := by simp [arrayAt, h]
    exact ⟨by simp [ho], by simp only [List.findSome?_cons, List.findSome?_nil, ho]; cases f.items <;> rfl, by simp [ho]⟩
  | union u e => exact ⟨x, e, rfl, h⟩
  | _ => exact .inl ⟨x, rfl, h⟩

/-- A type that is built on no other has taken up its line from the start. -/
theorem Inv.root (S : Setup s0) (hi : Inv s0 G s) {x : Addr} (hr : Root s0 x) {b0 : Base} (h0 : s0.base x = some b0) (hs : s.shapeAt x = s0.shapeAt x) : Eff s0 s x [x] := by
  obtain ⟨q, _, hq⟩ := S.shapeAt h0
  refine ⟨q, q, hq, hs.trans hq, rfl, (shapeEff_self hq).maps (fun c hc i hx => ?_) fun c hc i hx => ?_⟩
  · rw [List.mem_singleton.1 hc] at hx
    refine hi.pmaps i fun y m _ => ?_
    rw [mine_inj S m.1 hx] at m
    exact absurd hr m.2
  · rw [List.mem_singleton.1 hc] at hx
    refine hi.ppmaps i fun y m _ => ?_
    rw [pmine_inj S m.1 hx] at m
    exact absurd hr m.2

theorem root_line {x : Addr} {l : List Addr} (hr : Root s0 x) (hl : Line s0 x l) : l = [x] := by
  cases hl with
  | root => rfl
  | «alias» h1 h2 => exact absurd (.alias h1 h2) (hr _)
  | on _ _ h => exact absurd h (hr _)

/-- What a type that is being unwrapped is built on, once it has been unwrapped itself. -/
theorem Inv.target (S : Setup s0) (hi : Inv s0 G s) (ha : G a) (hp : ∀ g, G g → g = a ∨ InvolvesDeeply s0 g a) (ht : BuiltOn s0 a t) (hu : Unw s t) :
    t ≠ a ∧ ∃ b, s.base t = some b ∧ b.visited = false ∧ ∀ l, Line s0 t l → Eff s0 s t l ∧ ∀ c ∈ l, Fixed s0 s G c := by
  obtain ⟨b0, h0⟩ := S.next a t (.inr ht)
  have hne : t ≠ a := by
    rintro rfl
    obtain ⟨b, hb⟩ := builtOn_base ht
    obtain ⟨l, hl, _⟩ := S.straight.line t b hb
    exact absurd (height_lt hl ht) (Nat.lt_irrefl _)
  obtain ⟨b, k1, k2, k3⟩ := hi.node t b0 h0
  refine ⟨hne, b, k1, k2, fun l hl => ?_⟩
  cases k3 with
  | raw e1 =>
    obtain ⟨c, h1, h2⟩ := hu
    rw [k1] at h1
    cases h1
    rw [e1] at h2
    cases h2
  | opened e1 e2 e3 e4 e5 e6 =>
    by_cases hr : Root s0 t
    · have := root_line hr hl
      subst this
      refine ⟨hi.root S hr h0 (by simp [St.shapeAt, k1, h0, e3]), fun c hc => ?_⟩
      rw [List.mem_singleton.1 hc]
      exact ⟨hu, .inl hr⟩
    · have : ∃ y, BuiltOn s0 t y := Classical.byContradiction fun h => hr fun y hy => h ⟨y, hy⟩
      obtain ⟨y, hy⟩ := this
      exact absurd (.more ((hp t e2).resolve_left hne) (.inr ht)) (S.straight.unfinished a t y ht hy)
  | done e1 e2 e3 e4 e5 => exact ⟨(e5 l hl).1 fun ⟨c, y, h, _⟩ => S.notOverRef ht c y h, (e5 l hl).2⟩

/-! ## The loops -/

/-- What unwrapping a type comes to. -/
def Goes (s0 : St) (G : Addr → Prop) (a : Addr) (s s' : St) : Prop := Inv s0 G s' ∧ Unw s' a ∧ ∀ x, Unw s x → Unw s' x

/-- Unwrapping one level down. -/
def RecOK (s0 : St) (rec : Addr → M St Addr) : Prop := ∀ {G : Addr → Prop} {a r : Addr} {s s' : St}, Inv s0 G s → (∃ b, s0.base a = some b) →
  (∀ g, G g → InvolvesDeeply s0 g a) → rec a s = (.ok r, s') → r = a ∧ Goes s0 G a s s'

theorem modify_same {α : Type} {l : List α} {i : Nat} {f : α → α} (h : ∀ x, l[i]? = some x → f x = x) : l.modify i f = l := by
  apply List.ext_getElem?
  intro j
  rw [List.getElem?_modify]
  by_cases hij : i = j
  · subst hij
    cases hx : l[i]? with
    | none => rfl
    | some x => simp [h x hx]
  · cases l[j]? <;> simp [hij]

theorem set_same {α : Type} {l : List α} {k : Nat} {x : α} (h : l[k]? = some x) : l.set k x = l := by
  apply List.ext_getElem?
  intro j
  rw [List.getElem?_set]
  split
  · rename_i e
    subst e
    split
    · exact h.symm
    · rename_i hlt
      rw [List.getElem?_eq_none (Nat.not_lt.1 hlt)] at h
      cases h
  · rfl

section
variable {rec : Addr → M St Addr} (hrec : RecOK s0 rec) (S : Setup s0) (ha : G a) (hp : ∀ g, G g → g = a ∨ InvolvesDeeply s0 g a)
include hrec S ha hp

theorem rec_part {y r : Addr} (hi : Inv s0 G s) (hy : Involves s0 a y) (hr : rec y s = (.ok r, s')) : r = y ∧ Goes s0 G y s s' :=
  hrec hi (S.next a y hy) (fun g hg => (hp g hg).elim (fun e => e ▸ .one hy) fun h => .more h hy) hr

theorem unwrapProps_goes {i : Nat} (hm : (objectAt s0 a).properties = some i) : ∀ (n k : Nat) {s s' : St}, Inv s0 G s → unwrapProps rec i n k s = (.ok (), s') →
    Inv s0 G s' ∧ (∀ x, Unw s x → Unw s' x) ∧ ∀ j p, k ≤ j → (s0.props (some i))[j]? = some p → Unw s' p.2.base
  | 0, _, _, _, _, h => by simp [unwrapProps, M.diverge] at h
  | n + 1, k, s, s', hi, h => by
    have same : ∀ {s}, Inv s0 G s → s.pmaps[i]? = s0.pmaps[i]? := fun hi => hi.pmaps i fun x m _ => by rw [mine_inj S m.1 hm]; exact ha
    have hs : s.props (some i) = s0.props (some i) := by simp [St.props, same hi]
    simp only [unwrapProps, hs] at h
    cases hk : (s0.props (some i))[k]? with
    | none =>
      simp only [hk] at h
      cases h
      refine ⟨hi, fun _ h => h, fun j p hj hjp => ?_⟩
      rw [List.getElem?_eq_none_iff] at hk
      rw [List.getElem?_eq_none (Nat.le_trans hk hj)] at hjp
      cases hjp
    | some kp =>
      simp only [hk] at h
      replace h := M.bind_ok.1 h
      obtain ⟨us, s1, h1, h⟩ := h
      obtain ⟨b, hb⟩ := objectAt_shape hm
      obtain ⟨e, g1, g2, g3⟩ := rec_part hrec S ha hp hi (.inl ⟨_, hb.1, .property (p := kp) (by rw [hb.2]; exact List.mem_of_getElem? hk)⟩) h1
      subst e
      replace h := M.bind_ok.1 h
      obtain ⟨_, s2, h2, h⟩ := h
      cases h2
      have hi2 : Inv s0 G { s1 with pmaps := s1.pmaps.modify i fun m => (List.set m k (kp.1, { kp.2 with base := kp.2.base }) : List _) } := by
        refine g1.same rfl rfl rfl (modify_same fun m hm => set_same ?_) rfl
        rw [same g1] at hm
        simpa [St.props, hm] using hk
      obtain ⟨k1, k2, k3⟩ := unwrapProps_goes hm n (k + 1) hi2 h
      refine ⟨k1, fun x hx => k2 x (g3 x hx), fun j p hj hjp => ?_⟩
      rcases Nat.lt_or_ge k j with hlt | hge
      · exact k3 j p hlt hjp
      · have : j = k := Nat.le_antisymm hge hj
        subst this
        rw [hk] at hjp
        cases hjp
        exact k2 _ g2

theorem unwrapPatProps_goes {i : Nat} (hm : (objectAt s0 a).patternProperties = some i) : ∀ (n k : Nat) {s s' : St}, Inv s0 G s → unwrapPatProps rec i n k s = (.ok (), s') →
    Inv s0 G s' ∧ (∀ x, Unw s x → Unw s' x) ∧ ∀ j p, k ≤ j → (s0.patProps (some i))[j]? = some p → Unw s' p.2.base
  | 0, _, _, _, _, h => by simp [unwrapPatProps, M.diverge] at h
  | n + 1, k, s, s', hi, h => by
    have same : ∀ {s}, Inv s0 G s → s.ppmaps[i]? = s0.ppmaps[i]? := fun hi => hi.ppmaps i fun x m _ => by rw [pmine_inj S m.1 hm]; exact ha
    have hs : s.patProps (some i) = s0.patProps (some i) := by simp [St.patProps, same hi]
    simp only [unwrapPatProps, hs] at h
    cases hk : (s0.patProps (some i))[k]? with
    | none =>
      simp only [hk] at h
      cases h
      refine ⟨hi, fun _ h => h, fun j p hj hjp => ?_⟩
      rw [List.getElem?_eq_none_iff] at hk
      rw [List.getElem?_eq_none (Nat.le_trans hk hj)] at hjp
      cases hjp
    | some kp =>
      simp only [hk] at h
      replace h := M.bind_ok.1 h
      obtain ⟨us, s1, h1, h⟩ := h
      obtain ⟨b, hb⟩ : ∃ f, s0.shapeAt a = some (.object f) ∧ f.patternProperties = some i := by
        obtain ⟨_, _, h1, h2, h3⟩ := objectAt_patterns hm
        exact ⟨_, shapeAt_of h1 h2, h3⟩
      obtain ⟨e, g1, g2, g3⟩ := rec_part hrec S ha hp hi (.inl ⟨_, hb.1, .pattern (p := kp) (by rw [hb.2]; exact List.mem_of_getElem? hk)⟩) h1
      subst e
      replace h := M.bind_ok.1 h
      obtain ⟨_, s2, h2, h⟩ := h
      cases h2
      have hi2 : Inv s0 G { s1 with ppmaps := s1.ppmaps.modify i fun m => (List.set m k (kp.1, { kp.2 with base := kp.2.base }) : List _) } := by
        refine g1.same rfl rfl rfl rfl (modify_same fun m hm => set_same ?_)
        rw [same g1] at hm
        simpa [St.patProps, hm] using hk
      obtain ⟨k1, k2, k3⟩ := unwrapPatProps_goes hm n (k + 1) hi2 h
      refine ⟨k1, fun x hx => k2 x (g3 x hx), fun j p hj hjp => ?_⟩
      rcases Nat.lt_or_ge k j with hlt | hge
      · exact k3 j p hlt hjp
      · have : j = k := Nat.le_antisymm hge hj
        subst this
        rw [hk] at hjp
        cases hjp
        exact k2 _ g2

theorem unwrapMembers_goes {i : Nat} {e : Option (List GoVal)} (hm : s0.shapeAt a = some (.union (some i) e)) : ∀ (n k : Nat) {s s' : St}, Inv s0 G s →
    unwrapMembers rec i n k s = (.ok (), s') → Inv s0 G s' ∧ (∀ x, Unw s x → Unw s' x) ∧ ∀ (j : Nat) p, k ≤ j → (s0.slice (some i))[j]? = some p → Unw s' p
  | 0, _, _, _, _, h => by simp [unwrapMembers, M.diverge] at h
  | n + 1, k, s, s', hi, h => by
    have hs : s.slice (some i) = s0.slice (some i) := by simp [St.slice, hi.slices]
    simp only [unwrapMembers, hs] at h
    cases hk : (s0.slice (some i))[k]? with
    | none =>
      simp only [hk] at h
      cases h
      refine ⟨hi, fun _ h => h, fun j p hj hjp => ?_⟩
      rw [List.getElem?_eq_none_iff] at hk
      rw [List.getElem?_eq_none (Nat.le_trans hk hj)] at hjp
      cases hjp
    | some m =>
      simp only [hk] at h
      replace h := M.bind_ok.1 h
      obtain ⟨us, s1, h1, h⟩ := h
      obtain ⟨e, g1, g2, g3⟩ := rec_part hrec S ha hp hi (.inl ⟨_, hm, .member (List.mem_of_getElem? hk)⟩) h1
      subst e
      replace h := M.bind_ok.1 h
      obtain ⟨_, s2, h2, h⟩ := h
      cases h2
      have hi2 : Inv s0 G { s1 with slices := s1.slices.modify i fun l => l.set k us } := by
        refine g1.same rfl (modify_same fun m hm => set_same ?_) rfl rfl rfl
        rw [g1.slices] at hm
        simpa [St.slice, hm] using hk
      obtain ⟨k1, k2, k3⟩ := unwrapMembers_goes hm n (k + 1) hi2 h
      refine ⟨k1, fun x hx => k2 x (g3 x hx), fun j p hj hjp => ?_⟩
      rcases Nat.lt_or_ge k j with hlt | hge
      · exact k3 j p hlt hjp
      · have : j = k := Nat.le_antisymm hge hj
        subst this
        rw [hk] at hjp
        cases hjp
        exact k2 _ g2

/-- The parts of a type that is being unwrapped. -/
theorem unwrapTarget_goes {n : Nat} {b0 : Base} (h0 : s0.base a = some b0) (hi : Inv s0 G s) (h : unwrapTarget rec n a s = (.ok (), s')) :
    Inv s0 G s' ∧ (∀ x, Unw s x → Unw s' x) ∧ ∀ y, Refers s0 a y → Unw s' y := by
  obtain ⟨q, hq, hq0⟩ := S.shapeAt h0
  have shape : ∀ {s}, Inv s0 G s → s.shapeAt a = some q := fun hi => by
    obtain ⟨b, k1, _, _, k2, _⟩ := hi.opened ha h0
    exact shapeAt_of k1 (k2.trans hq)
  unfold unwrapTarget at h
  rw [M.get_bind, shape hi] at h
  have none : (∀ y, ¬ ShapeEdge s0 q y) → s' = s → Inv s0 G s' ∧ (∀ x, Unw s x → Unw s' x) ∧ ∀ y, Refers s0 a y → Unw s' y := fun hn e => by
    subst e
    refine ⟨hi, fun _ h => h, fun y ⟨q', h1, h2⟩ => ?_⟩
    rw [hq0] at h1
    cases h1
    exact absurd h2 (hn y)
  cases q with
  | array f =>
    cases hf : f.items with
    | none =>
      simp only [unwrapTargetShape, hf, whenSome] at h
      cases h
      exact none (fun y k => by cases k; simp_all) rfl
    | some i =>
      simp only [unwrapTargetShape, hf, whenSome] at h
      replace h := M.bind_ok.1 h
      obtain ⟨us, s1, h1, h⟩ := h
      obtain ⟨e, g1, g2, g3⟩ := rec_part hrec S ha hp hi (.inl ⟨_, hq0, .items hf⟩) h1
      subst e
      obtain ⟨b, k1, k0, k0', k2, _⟩ := g1.opened ha h0
      rw [hq] at k2
      obtain ⟨s2, e1, e2, e3⟩ := setArray_touch (f' := { arrayAt s1 a with items := some us }) k1 k2
      rw [e1] at h
      cases h
      have hf' : ({ arrayAt s1 a with items := some us } : ArrayF) = f := by rw [arrayAt_of k1 k2, ← hf]
      rw [hf', ← k2] at e3
      have hu : ∀ x, Unw s1 x → Unw s' x := fun x ⟨c, h1, h2⟩ => by
        by_cases hx : x = a
        · subst hx; rw [k1] at h1; cases h1; exact ⟨_, e3, h2⟩
        · exact ⟨c, by rw [e2.others x hx]; exact h1, h2⟩
      refine ⟨g1.tweak S ha k1 e2 e3 ⟨rfl, rfl, rfl⟩ rfl rfl rfl, fun x hx => hu x (g3 x hx), fun y ⟨q', h1, h2⟩ => ?_⟩
      rw [hq0] at h1
      cases h1
      cases h2 with
      | items h2 =>
        rw [hf] at h2
        cases h2
        exact hu _ g2
  | object f =>
    have ho : objectAt s0 a = f := by simp [objectAt, hq0]
    simp only [unwrapTargetShape] at h
    obtain ⟨_, s1, h1, h2⟩ := M.bind_ok.1 h
    have p1 : Inv s0 G s1 ∧ (∀ x, Unw s x → Unw s1 x) ∧ ∀ p ∈ s0.props f.properties, Unw s1 p.2.base := by
      cases hf : f.properties with
      | none =>
        rw [hf] at h1
        cases h1
        exact ⟨hi, fun _ h => h, fun p hp => by simp [St.props] at hp⟩
      | some i =>
        rw [hf] at h1
        obtain ⟨g1, g2, g3⟩ := unwrapProps_goes hrec S ha hp (by rw [ho]; exact hf) n 0 hi h1
        refine ⟨g1, g2, fun p hp => ?_⟩
        obtain ⟨j, hj⟩ := List.mem_iff_getElem?.1 hp
        exact g3 j p (Nat.zero_le _) hj
    obtain ⟨g1, g2, g3⟩ := p1
    have ho1 : objectAt s1 a = f := by simp [objectAt, shape g1]
    simp only [ho1] at h2
    have p2 : Inv s0 G s' ∧ (∀ x, Unw s1 x → Unw s' x) ∧ ∀ p ∈ s0.patProps f.patternProperties, Unw s' p.2.base := by
      cases hf : f.patternProperties with
      | none =>
        rw [hf] at h2
        cases h2
        exact ⟨g1, fun _ h => h, fun p hp => by simp [St.patProps] at hp⟩
      | some i =>
        rw [hf] at h2
        obtain ⟨g1, g2, g3⟩ := unwrapPatProps_goes hrec S ha hp (by rw [ho]; exact hf) n 0 g1 h2
        refine ⟨g1, g2, fun p hp => ?_⟩
        obtain ⟨j, hj⟩ := List.mem_iff_getElem?.1 hp
        exact g3 j p (Nat.zero_le _) hj
    obtain ⟨j1, j2, j3⟩ := p2
    refine ⟨j1, fun x hx => j2 x (g2 x hx), fun y ⟨q', k1, k2⟩ => ?_⟩
    rw [hq0] at k1
    cases k1
    cases k2 with
    | property hp => exact j2 _ (g3 _ hp)
    | pattern hp => exact j3 _ hp
  | union u e =>
    cases hf : u with
    | none =>
      simp only [unwrapTargetShape, hf, whenSome] at h
      cases h
      exact none (fun y k => by cases k; simp_all [St.slice]) rfl
    | some i =>
      simp only [unwrapTargetShape, hf, whenSome] at h
      obtain ⟨g1, g2, g3⟩ := unwrapMembers_goes hrec S ha hp (by rw [← hf]; exact hq0) n 0 hi h
      refine ⟨g1, g2, fun y ⟨q', k1, k2⟩ => ?_⟩
      rw [hq0] at k1
      cases k1
      cases k2 with
      | member hm =>
        rw [hf] at hm
        obtain ⟨j, hj⟩ := List.mem_iff_getElem?.1 hm
        exact g3 j y (Nat.zero_le _) hj
  | string f => cases h; exact none (fun y k => by cases k) rfl
  | integer f => cases h; exact none (fun y k => by cases k) rfl
  | number f => cases h; exact none (fun y k => by cases k) rfl
  | file f => cases h; exact none (fun y k => by cases k) rfl
  | boolean f => cases h; exact none (fun y k => by cases k) rfl
  | datetime f => cases h; exact none (fun y k => by cases k) rfl
  | datetimeOnly => cases h; exact none (fun y k => by cases k) rfl
  | dateOnly => cases h; exact none (fun y k => by cases k) rfl
  | timeOnly => cases h; exact none (fun y k => by cases k) rfl
  | nil => cases h; exact none (fun y k => by cases k) rfl
  | any => cases h; exact none (fun y k => by cases k) rfl
  | json _ _ => cases h; exact none (fun y k => by cases k) rfl
  | unknown _ => cases h; exact none (fun y k => by cases k) rfl
  | recursive _ => cases h; exact none (fun y k => by cases k) rfl

end

end GoRaml.Mean
