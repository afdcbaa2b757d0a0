import Verif.Lemmas.CloneTotal
import Verif.Lemmas.Bisim
import Verif.Props.Validate

/-!
# Properties C23 - C25: cloning

`cloneDetached n a` is `CloneDetached()` on the type at `a`; `cloneMany n l` is `Clone(m)` on each type of `l` in turn with
one map `m`, empty at first.  `n` bounds the nesting of calls; the theorems hold for every `n` large enough or for every
`n` for which the call returns.
-/

namespace GoRaml.Props

open GoRaml Spec

/-! ## C23 -/

/-- C23: cloning returns on every finite type graph, cyclic or not, for all types of a list with one shared map, and
everything that existed before is unchanged. -/
theorem c23_clone_terminates (h : St) (hw : WellFormed h) (l : List Addr) (hl : ∀ a ∈ l, IsBase h a) (n : Nat)
    (hn : h.bases.length < n) : ∃ cs h', cloneMany n l h = (.ok cs, h') ∧ Unchanged h h' := by
  obtain ⟨cs, h', h1⟩ := cloneMany_total hw hl n hn
  obtain ⟨_, h2, _⟩ := cloneMany_spec hw hl h1
  exact ⟨cs, h', h1, h2⟩

/-- C23 for `CloneDetached`. -/
theorem c23_cloneDetached_terminates (h : St) (hw : WellFormed h) (a : Addr) (ha : IsBase h a) (n : Nat)
    (hn : h.bases.length < n) : ∃ c h', cloneDetached n a h = (.ok c, h') ∧ Unchanged h h' := by
  obtain ⟨c, h', h1⟩ := cloneDetached_total hw ha n hn
  obtain ⟨_, h2, _⟩ := cloneMany_spec hw (by simpa using ha) ((cloneDetached_eq n a c h h').1 h1)
  exact ⟨c, h', h1, h2⟩

/-- A cyclic graph with every kind of link: 0 is an object with property `next` of type 0 itself, a pattern property, a
custom facet, a parent 1 and a linked fragment; 1 is a union of 2 and 0; 2 an array of 3; 3 an alias of 2's sibling 4. -/
def exGraph : St :=
  { bases :=
      [{ shape := some (.object { properties := some 0, patternProperties := some 0 }), id := 1, inherits := some 0,
         link := some 0, facets := some 0, facetDefs := some 1 },
       { shape := some (.union (some 1) none), id := 2 },
       { shape := some (.array { items := some 3, minItems := some 1 }), id := 3 },
       { shape := some (.string {}), id := 4, «alias» := some 4 },
       { shape := some (.string { minLength := some 2 }), id := 5 }]
    pmaps := [[("next", ⟨"next", 0, false⟩), ("id", ⟨"id", 4, true⟩)], [("facet", ⟨"facet", 4, true⟩)]]
    ppmaps := [[("/x/", ⟨"x", 3⟩)]]
    slices := [[1], [2, 0]]
    fmaps := [[("facet", .str "v")]]
    dts := [{ location := "dt.raml", shape := some 4 }] }

theorem exGraph_wf : WellFormed exGraph := by
  intro a b hb
  simp only [St.base, exGraph] at hb
  rcases a with _ | _ | _ | _ | _ | a <;> simp at hb <;> subst hb <;>
    constructor <;> simp [IfSome, ShapeOK, PropsOK, PatPropsOK, SliceOK, IsBase, exGraph]
  rintro k p (⟨rfl, rfl⟩ | ⟨rfl, rfl⟩) <;> simp

example : WellFormed exGraph ∧ IsBase exGraph 0 ∧
    (∃ h', cloneDetached 6 0 exGraph = (.ok 5, h') ∧ h'.bases.length = 10 ∧ h'.pmaps.length = 8) :=
  ⟨exGraph_wf, by simp [IsBase, exGraph], (cloneDetached 6 0 exGraph).2, M.run_ok (by decide +kernel),
    by decide +kernel, by decide +kernel⟩

/-! ## C24 -/

/-- The addresses recorded in the clone map are closed under mentioned types. -/
theorem clone_reach {h h' : St} {Q : Addr → Prop} {μ : List (Int × Addr)}
    (hd : ∀ i x, memoGet μ i = some x → h.bases.length ≤ x ∧ x < h'.bases.length ∧ Done h Q ⟨h', μ⟩ i x)
    {c x : Addr} (hc : ∃ i, memoGet μ i = some c) (hr : Reach h' c x) : ∃ i, memoGet μ i = some x := by
  induction hr with
  | refl => exact hc
  | step _ he ih =>
    obtain ⟨i, hi⟩ := ih
    obtain ⟨_, _, x0, b, b', _, h1, h2, h3, h4, h5⟩ := hd i _ hi
    obtain ⟨y, _, b1, h6, h7⟩ := SameBase.edge h1 h3 h4 he
    exact ⟨_, h7⟩

/-- C24: every type reachable from a clone through properties, pattern properties, items, union members, parents, alias,
link and custom facets is new, and so are the maps and slices it owns. -/
theorem c24_clone_fresh (h h' : St) (hw : WellFormed h) (l cs : List Addr) (hl : ∀ a ∈ l, IsBase h a) (n : Nat)
    (hcl : cloneMany n l h = (.ok cs, h')) (c : Addr) (hc : c ∈ cs) (x : Addr) (hr : Reach h' c x) :
    h.bases.length ≤ x ∧ ∃ b, h'.base x = some b ∧ FreshParts h h' b := by
  obtain ⟨μ, _, h2, h3⟩ := cloneMany_spec hw hl hcl
  obtain ⟨a, _, b, _, h4⟩ := Forall₂_mem h2 hc
  obtain ⟨i, hi⟩ := clone_reach h3 ⟨_, h4⟩ hr
  obtain ⟨h5, _, _, _, b', _, _, _, h7, _, h9⟩ := h3 i x hi
  exact ⟨h5, b', h7, h9⟩

/-- Everything reachable from an old type, including recursive heads, is old. -/
theorem reachAll_old {h h' : St} (hw : WellFormed h) (u : Unchanged h h') {a : Addr} (ha : IsBase h a) {x : Addr}
    (hr : ReachAll h' a x) : IsBase h x := by
  induction hr with
  | refl => exact ha
  | @step x y _ he ih =>
    obtain ⟨b, hb⟩ := get_of_lt ih
    have hb : h.base x = some b := hb
    have hok := hw x b hb
    obtain ⟨s, hs, hsok⟩ := hok.shape
    have hsame : BothOr (SameShape (fun p q => p = q ∧ IsBase h p) (fun p q => p = q ∧ IsBase h p) h h')
        (some s) (some s) := SameShape.self u (fun x hx => ⟨rfl, hx⟩) hsok
    rcases he with he | he
    · have hself : SameBase (fun p q => p = q ∧ IsBase h p) (fun p q => p = q ∧ IsBase h p) h h' b b := by
        constructor <;> try rfl
        · cases hf : b.facets with
          | none => rfl
          | some i => obtain ⟨m, hm⟩ := hok.facets i hf; exact u.facetMap (lt_of_get hm)
        · cases hf : b.facetDefs with
          | none => exact .nil
          | some i =>
            obtain ⟨m, hm, hm'⟩ := hok.facetDefs i hf
            rw [u.props (lt_of_get hm)]
            unfold SameProps
            rw [List.forall₂_same]
            intro p hp
            exact ⟨rfl, rfl, rfl, rfl, hm' p (by simpa [St.props, hm] using hp)⟩
        · cases hf : b.alias with
          | none => trivial
          | some i => exact ⟨rfl, hok.alias i hf⟩
        · cases hf : b.inherits with
          | none => trivial
          | some i =>
            obtain ⟨m, hm, hm'⟩ := hok.inherits i hf
            show List.Forall₂ _ _ _
            rw [u.slice (lt_of_get hm), List.forall₂_same]
            intro p hp
            exact ⟨rfl, hm' p (by simpa [St.slice, hm] using hp)⟩
        · cases hf : b.link with
          | none => trivial
          | some i =>
            obtain ⟨d, y, h1, h2, h3⟩ := hok.link i hf
            refine ⟨d, d, h1, prefix_get u.dts h1, rfl, rfl, ?_⟩
            rw [h2]; exact ⟨rfl, h3⟩
        · rw [hs]; exact hsame
      obtain ⟨y', _, rfl, h2⟩ := SameBase.edge hb (u.base hb) hself he
      exact h2
    · have : h'.shapeAt x = some s := by simp [St.shapeAt, u.base hb, hs]
      unfold HeadEdge at he
      rw [this] at he
      cases he
      exact hsok

/-- C24: a clone and the types that existed before have no type in common, as long as recursive heads are not followed
on the clone's side (with heads the clone does reach the original, see `c24_recursive_head_shared`). -/
theorem c24_clone_disjoint (h h' : St) (hw : WellFormed h) (l cs : List Addr) (hl : ∀ a ∈ l, IsBase h a)
    (n : Nat) (hcl : cloneMany n l h = (.ok cs, h')) (c : Addr) (hc : c ∈ cs) (a : Addr) (ha : IsBase h a)
    (x y : Addr) (hx : Reach h' c x) (hy : ReachAll h' a y) : x ≠ y := by
  obtain ⟨_, u, _⟩ := cloneMany_spec hw hl hcl
  have h1 := (c24_clone_fresh h h' hw l cs hl n hcl c hc x hx).1
  have h2 : y < h.bases.length := reachAll_old hw u ha hy
  rintro rfl
  exact absurd h2 (Nat.not_lt.2 h1)

/-- C24: full independence when no recursive reference is reachable from the originals. -/
theorem c24_clone_independent (h h' : St) (hw : WellFormed h) (l cs : List Addr) (hl : ∀ a ∈ l, IsBase h a)
    (hnorec : ∀ a ∈ l, ∀ x hd, Reach h a x → h.shapeAt x ≠ some (.recursive hd))
    (n : Nat) (hcl : cloneMany n l h = (.ok cs, h')) (c : Addr) (hc : c ∈ cs) (a : Addr) (ha : IsBase h a)
    (x y : Addr) (hx : ReachAll h' c x) (hy : ReachAll h' a y) : x ≠ y := by
  obtain ⟨μ, u, h2, h3⟩ := cloneMany_spec hw hl hcl
  have hc' : ∃ i, memoGet μ i = some c := by
    obtain ⟨a, _, b, _, h4⟩ := Forall₂_mem h2 hc
    exact ⟨_, h4⟩
  have hall : Reach h' c x := by
    clear hy
    induction hx with
    | refl => exact .refl _
    | @step x y _ he ih =>
      rcases he with he | he
      · exact .step ih he
      · exfalso
        obtain ⟨i, hi⟩ := clone_reach h3 hc' ih
        obtain ⟨_, _, x0, b, b', ⟨a0, ha0, hq⟩, h4, h5, h6, h7, h8⟩ := h3 i _ hi
        have hsh : b'.shape = some (.recursive y) := by
          simpa [HeadEdge, St.shapeAt, h6] using he
        have h9 := h7.shape
        rw [hsh] at h9
        cases h10 : b.shape with
        | none => rw [h10] at h9; exact h9.elim
        | some s =>
          rw [h10] at h9
          change SameShape _ _ _ _ s (.recursive y) at h9
          cases s <;> simp only [SameShape, reduceCtorEq] at h9
          exact hnorec a0 ha0 x0 _ hq (by simp [St.shapeAt, h4, h10]; rfl)
  exact c24_clone_disjoint h h' hw l cs hl n hcl c hc a ha x y hall hy

/-- C24, violation: the clone of a recursive reference keeps the original head, an old type. -/
theorem c24_recursive_head_shared (h h' : St) (hw : WellFormed h) (a c hd : Addr)
    (hs : h.shapeAt a = some (.recursive hd)) (n : Nat) (hcl : cloneDetached n a h = (.ok c, h')) :
    h'.shapeAt c = some (.recursive hd) ∧ hd < h.bases.length ∧ ReachAll h' c hd ∧ ReachAll h' a hd := by
  have ha : IsBase h a := by
    by_contra hn
    have : h.base a = none := List.getElem?_eq_none (Nat.not_lt.1 hn)
    simp [St.shapeAt, this] at hs
  obtain ⟨b, hb⟩ := get_of_lt ha
  have hb : h.base a = some b := hb
  obtain ⟨μ, u, h2, h3⟩ := cloneMany_spec hw (by simpa using ha) ((cloneDetached_eq n a c h h').1 hcl)
  obtain ⟨b0, hb0, hm⟩ : MR h μ a c := by cases h2; assumption
  rw [hb] at hb0; cases hb0
  obtain ⟨s, hsh, hsok⟩ := (hw a b hb).shape
  have hse : s = .recursive hd := by simpa [St.shapeAt, hb, hsh] using hs
  subst hse
  -- the copy registered for this ID was made from the first type with this ID, which is `a` itself
  have key : h'.shapeAt c = some (.recursive hd) := by
    cases n with
    | zero => simp [cloneDetached, clone, M.diverge] at hcl
    | succ n =>
      obtain ⟨o, t', h1⟩ : ∃ o t', clone (n + 1) a ⟨h, []⟩ = (o, t') := ⟨_, _, rfl⟩
      simp only [cloneDetached, h1, Prod.mk.injEq] at hcl
      obtain ⟨rfl, rfl⟩ := hcl
      unfold clone at h1
      obtain ⟨s0, t1, h4, h1⟩ := M.bind_ok.1 h1
      simp only [onHeap, Heap.getBase, hb, Prod.mk.injEq, Out.ok.injEq] at h4
      obtain ⟨rfl, rfl⟩ := h4
      obtain ⟨t2, t3, h5, h1⟩ := M.bind_ok.1 h1
      obtain ⟨rfl, rfl⟩ := M.get_ok.1 h5
      simp only [memoGet] at h1
      obtain ⟨c1, t4, h6, g1⟩ := M.bind_ok.1 h1
      obtain ⟨_, t5, h7, g2⟩ := M.bind_ok.1 g1
      simp only [onHeap, Heap.newBase, Prod.mk.injEq, Out.ok.injEq] at h6
      obtain ⟨rfl, rfl⟩ := h6
      unfold cloneFill at g2
      obtain ⟨fm, t6, _, g3⟩ := M.bind_ok.1 g2
      obtain ⟨fd, t7, _, g4⟩ := M.bind_ok.1 g3
      obtain ⟨al, t8, _, g5⟩ := M.bind_ok.1 g4
      obtain ⟨inh, t9, _, g6⟩ := M.bind_ok.1 g5
      obtain ⟨lk, t10, _, g7⟩ := M.bind_ok.1 g6
      simp only [hsh, cloneShape] at g7
      obtain ⟨sh', t11, h8, g8⟩ := M.bind_ok.1 g7
      obtain ⟨rfl, rfl⟩ := M.ret_ok.1 h8
      obtain ⟨_, t12, h9, g9⟩ := M.bind_ok.1 g8
      obtain ⟨rfl, rfl⟩ := M.ret_ok.1 g9
      simp only [onHeap, Heap.updBase, Prod.mk.injEq] at h9
      obtain ⟨_, rfl⟩ := h9
      obtain ⟨_, hlt, _⟩ := h3 _ _ hm
      simp only [List.length_modify] at hlt
      simp [St.shapeAt, St.base, List.getElem?_modify, List.getElem?_eq_getElem hlt]
  refine ⟨key, hsok, .step (.refl c) (.inr key), .step (.refl a) (.inr ?_)⟩
  simp [HeadEdge, St.shapeAt, u.base hb, hsh]

/-- An unwrapped recursive object: property `next` is a recursive reference to the object. -/
def exRec : St :=
  { bases := [{ shape := some (.object { properties := some 0 }), id := 1 },
      { shape := some (.recursive 0), id := 2 }]
    pmaps := [[("next", ⟨"next", 1, false⟩)]] }

/-- The hypotheses are met: in the clone of `exRec`'s object (address 2) the property `next` (address 3) points back to
the original object 0.  And `exGraph` has no recursive reference, so the full independence applies to it. -/
example : (∃ h', cloneDetached 3 0 exRec = (.ok 2, h') ∧ ReachAll h' 2 0) ∧
    (∀ a ∈ [0], ∀ x hd, Reach exGraph a x → exGraph.shapeAt x ≠ some (.recursive hd)) := by
  refine ⟨⟨_, rfl, ?_⟩, ?_⟩
  · refine .step (.step (.refl 2) (.inl (.shape rfl (.property (p := ("next", ⟨"next", 3, false⟩)) ?_)))) (.inr ?_)
    · simp [St.props, Heap.newProps, Heap.updBase]; decide +kernel
    · rfl
  · intro a _ x hd _
    rcases x with _ | _ | _ | _ | _ | x <;> simp [St.shapeAt, St.base, exGraph]

/-! ## C25 -/

/-- C25: with unique IDs there is a one-to-one relation between the types reachable from the originals and their copies
that respects all fields, custom facets and links: the copy has the same graph. -/
theorem c25_clone_isomorphic (h h' : St) (hw : WellFormed h) (l cs : List Addr) (hl : ∀ a ∈ l, IsBase h a)
    (hu : UniqueIDsFrom h l) (n : Nat) (hcl : cloneMany n l h = (.ok cs, h')) :
    ∃ R : Addr → Addr → Prop, List.Forall₂ R l cs ∧
      (∀ x y, R x y → ∃ b b', h.base x = some b ∧ h'.base y = some b' ∧ SameBase R (fun p q => q = p) h h' b b') ∧
      (∀ x y z, R x y → R x z → y = z) ∧ (∀ x y z, R x z → R y z → x = y) := by
  obtain ⟨μ, u, h2, h3⟩ := cloneMany_spec hw hl hcl
  have key : ∀ x y b, (∃ a ∈ l, Reach h a x) → h.base x = some b → memoGet μ b.id = some y →
      ∃ b', h'.base y = some b' ∧ SameBase (MR h μ) (fun p q => q = p) h h' b b' := by
    intro x y b hx hb hm
    obtain ⟨_, _, x0, b0, b', hq, h4, h5, h6, h7, h8⟩ := h3 _ _ hm
    have := hu x x0 b b0 hx hq hb h4 h5.symm
    subst this
    rw [hb] at h4; cases h4
    exact ⟨b', h6, h7⟩
  have reach : ∀ x y, (∃ a ∈ l, Reach h a x) → Edge h x y → (∃ a ∈ l, Reach h a y) :=
    fun x y ⟨a, ha, hx⟩ he => ⟨a, ha, .step hx he⟩
  refine ⟨fun x y => (∃ a ∈ l, Reach h a x) ∧ MR h μ x y, ?_, ?_, ?_, ?_⟩
  · have : ∀ l' cs', List.Forall₂ (MR h μ) l' cs' → (∀ a ∈ l', a ∈ l) →
        List.Forall₂ (fun x y => (∃ a ∈ l, Reach h a x) ∧ MR h μ x y) l' cs' := by
      intro l' cs' hf
      induction hf with
      | nil => intro _; exact .nil
      | cons hxy _ ih =>
        intro hm
        exact .cons ⟨⟨_, hm _ (by simp), .refl _⟩, hxy⟩ (ih fun a ha => hm a (List.mem_cons_of_mem _ ha))
    exact this l cs h2 (fun _ ha => ha)
  · rintro x y ⟨hx, b, hb, hm⟩
    obtain ⟨b', hb', hs⟩ := key x y b hx hb hm
    refine ⟨b, b', hb, hb', ?_⟩
    exact SameBase.restrict hb (fun z hz => reach x z hx hz) hs
  · rintro x y z ⟨_, b, hb, hm⟩ ⟨_, b', hb', hm'⟩
    rw [hb] at hb'; cases hb'
    rw [hm] at hm'; cases hm'; rfl
  · rintro x y z ⟨hx, b, hb, hm⟩ ⟨hy, b', hb', hm'⟩
    obtain ⟨c1, hc1, hs1⟩ := key x z b hx hb hm
    obtain ⟨c2, hc2, hs2⟩ := key y z b' hy hb' hm'
    rw [hc1] at hc2; cases hc2
    exact hu x y b b' hx hy hb hb' (by rw [← hs1.id, ← hs2.id])

/-- C25: with unique IDs a clone gives, for every value, exactly the outcome the original gives (accept, reject, panic or
non-termination), including below recursive references. -/
theorem c25_clone_same_validation (E : Ext) (h h' : St) (hw : WellFormed h) (a c : Addr) (ha : IsBase h a)
    (hu : UniqueIDsFrom h [a]) (n : Nat) (hcl : cloneDetached n a h = (.ok c, h')) (v : GoVal) :
    (∀ k, validate E h' k c v = validate E h k a v) ∧ (Accepts E h' c v ↔ Accepts E h a v) ∧
      (Rejects E h' c v ↔ Rejects E h a v) := by
  have hcl' := (cloneDetached_eq n a c h h').1 hcl
  have hl : ∀ x ∈ [a], IsBase h x := by simpa using ha
  obtain ⟨_, u, _⟩ := cloneMany_spec hw hl hcl'
  obtain ⟨R, h1, h2, _, _⟩ := c25_clone_isomorphic h h' hw [a] [c] hl hu n hcl'
  have hac : R a c := by cases h1; assumption
  have hall : ∀ k, validate E h' k c v = validate E h k a v := by
    intro k
    refine validate_bisim E (R := fun x y => R x y ∨ (x = y ∧ IsBase h x)) ?_ k a c v (Or.inl hac)
    rintro x y (hxy | ⟨rfl, hx⟩)
    · obtain ⟨b, b', hb, hb', hs⟩ := h2 x y hxy
      obtain ⟨s, hsh, hsok⟩ := (hw x b hb).shape
      have := hs.shape
      simp only [St.shapeAt, hb, hb', Option.bind_some]
      refine BothOr.mono_of (fun s1 s2 hs1 _ h3 => ?_) this
      rw [hsh] at hs1; cases hs1
      exact SameShape.relax (fun _ _ hr => Or.inl hr) (fun p q hpq hp => Or.inr ⟨hpq.symm, hp⟩) hsok h3
    · obtain ⟨b, hb⟩ := get_of_lt hx
      have hb : h.base x = some b := hb
      obtain ⟨s, hsh, hsok⟩ := (hw x b hb).shape
      simp only [St.shapeAt, hb, u.base hb, Option.bind_some, hsh]
      exact SameShape.self u (fun z hz => Or.inr ⟨rfl, hz⟩) hsok
  refine ⟨hall, ?_, ?_⟩
  · simp only [Accepts, hall]
  · simp only [Rejects, hall]

example : UniqueIDsFrom exGraph [0] ∧ Accepts exE exGraph 0 (.map [("id", .str "ab"), ("next", .map [("id", .str "cd")])]) := by
  refine ⟨?_, ⟨4, by decide +kernel⟩⟩
  intro x y b c _ _ hb hc hid
  rcases x with _ | _ | _ | _ | _ | x <;> rcases y with _ | _ | _ | _ | _ | y <;>
    simp [St.base, exGraph] at hb hc <;> subst hb <;> subst hc <;> simp at hid <;> rfl

/-- Two property types with the same ID (as inheritance from a union leaves them behind, see C42). -/
def exDupID : St :=
  { bases := [{ shape := some (.object { properties := some 0 }), id := 1 },
      { shape := some (.string {}), id := 2 }, { shape := some (.integer {}), id := 2 }]
    pmaps := [[("s", ⟨"s", 1, true⟩), ("i", ⟨"i", 2, true⟩)]] }

/-- C25: unique IDs are necessary.  Two property types with the same ID are merged by the clone, which then rejects a value the
original accepts. -/
theorem c25_duplicate_ids_merge : ∃ h', cloneDetached 4 0 exDupID = (.ok 3, h') ∧
    Accepts exE exDupID 0 (.map [("s", .str "x"), ("i", .int 1)]) ∧
    Rejects exE h' 3 (.map [("s", .str "x"), ("i", .int 1)]) := by
  refine ⟨_, rfl, ⟨2, by decide +kernel⟩, ⟨2, "invalid type", by decide +kernel⟩⟩

end GoRaml.Props
