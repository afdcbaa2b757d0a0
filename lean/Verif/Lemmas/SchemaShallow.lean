import Verif.Lemmas.SchemaMem

/-!
# Shallow copies of schemas in memory
-/

namespace GoRaml.SMem

open GoRaml GoRaml.Spec

/-- Two pointers that are both nil, or point to objects with the same contents. -/
def Alike {α : Type} (st : List α) (p p' : Option Nat) : Prop :=
  (p = none ∧ p' = none) ∨ ∃ i j v, p = some i ∧ p' = some j ∧ st[i]? = some v ∧ st[j]? = some v

theorem Alike.symm {α : Type} {st : List α} {p p' : Option Nat} (h : Alike st p p') : Alike st p' p := by
  rcases h with ⟨h, h'⟩ | ⟨i, j, v, h1, h2, h3, h4⟩
  · exact .inl ⟨h', h⟩
  · exact .inr ⟨j, i, v, h2, h1, h4, h3⟩

theorem Alike.deref {α : Type} {st : List α} {p p' : Option Nat} (h : Alike st p p') {v : Option α} (hv : Deref st p v) : Deref st p' v := by
  rcases h with ⟨rfl, rfl⟩ | ⟨i, j, w, rfl, rfl, h3, h4⟩
  · exact hv
  · obtain ⟨x, h1, h2⟩ := hv
    exact ⟨x, h4.trans (h3.symm.trans h1), h2⟩

theorem Alike.map {h : Mem} {p p' : Option Nat} (e : Alike h.maps p p') {R : Nat → JS → Prop} {m : Option (List (String × Option JS))} (hm : IsMap h R p m) : IsMap h R p' m := by
  rcases e with ⟨rfl, rfl⟩ | ⟨i, j, w, rfl, rfl, h3, h4⟩
  · exact hm
  · cases m with
    | none => exact hm.elim
    | some l =>
      obtain ⟨ps, h1, h2⟩ := hm
      exact ⟨ps, h4.trans (h3.symm.trans h1), h2⟩

/-- Two schema objects that differ in the places of three maps only. -/
structure Twin (h : Mem) (x x' : SNode) : Prop where
  rest : x' = { x with annotations := x'.annotations, facetDefinitions := x'.facetDefinitions, facetData := x'.facetData }
  annotations : Alike h.vmaps x.annotations x'.annotations
  facetDefinitions : Alike h.maps x.facetDefinitions x'.facetDefinitions
  facetData : Alike h.vmaps x.facetData x'.facetData

theorem Twin.symm {h : Mem} {x x' : SNode} (t : Twin h x x') : Twin h x' x := by
  refine ⟨?_, t.annotations.symm, t.facetDefinitions.symm, t.facetData.symm⟩
  rw [t.rest]

theorem Twin.isNode {h : Mem} {x x' : SNode} (t : Twin h x x') {R : Nat → JS → Prop} {s : JS} (hn : IsNode h R x s) : IsNode h R x' s := by
  have h1 := t.annotations.deref hn.annotations
  have h2 := t.facetDefinitions.map hn.facetDefinitions
  have h3 := t.facetData.deref hn.facetData
  have e := t.rest
  rw [e]
  exact { hn with
    core := { hn.core with }
    annotations := h1
    facetDefinitions := h2
    facetData := h3 }

theorem Twin.isSchemaTo {h : Mem} {a c : Nat} {x x' : SNode} (t : Twin h x x') (ha : h.nodes[a]? = some x) (hc : h.nodes[c]? = some x') :
    ∀ {n s}, IsSchemaTo h n a s → IsSchemaTo h n c s
  | 0, _, hs => hs.elim
  | _ + 1, _, ⟨y, h1, h2⟩ => by
    cases ha.symm.trans h1
    exact ⟨x', hc, t.isNode h2⟩

theorem Twin.isSchema {h : Mem} {a c : Nat} {x x' : SNode} (t : Twin h x x') (ha : h.nodes[a]? = some x) (hc : h.nodes[c]? = some x') {s : JS} :
    IsSchema h a s ↔ IsSchema h c s :=
  ⟨fun ⟨n, hs⟩ => ⟨n, t.isSchemaTo ha hc hs⟩, fun ⟨n, hs⟩ => ⟨n, t.symm.isSchemaTo hc ha hs⟩⟩

/-- What one consists of is its own or the other one's too. -/
theorem Twin.consists {h : Mem} {a c : Nat} {x x' : SNode} (t : Twin h x x') (ha : h.nodes[a]? = some x) (hc : h.nodes[c]? = some x') {q : Cell} (hq : Consists h c q) :
    OwnCell h c q ∨ Consists h a q := by
  induction hq with
  | self => exact .inl .self
  | @field y z q hy hz hp ih =>
    rcases ih with ih | ih
    · cases ih
      cases hc.symm.trans hz
      have e := t.rest
      have keep : ∀ {q}, Points x q → OwnCell h c q ∨ Consists h a q := fun hp => .inr (.field .self ha hp)
      cases hp with
      | nat hi => rw [e] at hi; exact keep (.nat hi)
      | bool hi => rw [e] at hi; exact keep (.bool hi)
      | strs hi => rw [e] at hi; exact keep (.strs hi)
      | vals hi => rw [e] at hi; exact keep (.vals hi)
      | ptrs hi => rw [e] at hi; exact keep (.ptrs hi)
      | node hi => rw [e] at hi; exact keep (.node hi)
      | map hi =>
        simp only [List.mem_cons, List.not_mem_nil, or_false] at hi
        rcases hi with hi | hi | hi | hi
        · rw [e] at hi; exact keep (.map (by rw [hi]; simp))
        · rw [e] at hi; exact keep (.map (by rw [hi]; simp))
        · rw [e] at hi; exact keep (.map (by rw [hi]; simp))
        · exact .inl (.facetDefinitions hc hi.symm)
      | vmap hi =>
        simp only [List.mem_cons, List.not_mem_nil, or_false] at hi
        rcases hi with hi | hi
        · exact .inl (.annotations hc hi.symm)
        · exact .inl (.facetData hc hi.symm)
    · exact .inr (.field ih hz hp)
  | member _ hl hb ih =>
    rcases ih with ih | ih
    · cases ih
    · exact .inr (.member ih hl hb)
  | entry _ hl hb ih =>
    rcases ih with ih | ih
    · cases ih with
      | facetDefinitions hz hi =>
        cases hc.symm.trans hz
        rcases t.facetDefinitions with ⟨_, h2⟩ | ⟨i, j, v, h1, h2, h3, h4⟩
        · rw [hi] at h2; cases h2
        · cases hi.symm.trans h2
          cases h4.symm.trans hl
          exact .inr (.entry (.field .self ha (.map (by simp [h1]))) h3 hb)
    · exact .inr (.entry ih hl hb)

/-! ## The run -/

theorem shallow_vmap (h : Mem) {p : Option Nat} {l : Option (List (String × GoVal))} (hp : Deref h.vmaps p l) :
    ∃ p' h', memCopyVMap p h = (.ok p', h') ∧ Pre h h' ∧ h'.nodes = h.nodes ∧ h'.maps = h.maps ∧ Alike h'.vmaps p p' ∧ ∀ i, p' = some i → h.vmaps.length ≤ i := by
  cases p with
  | none => exact ⟨none, h, rfl, .refl h, rfl, rfl, .inl ⟨rfl, rfl⟩, fun i e => by cases e⟩
  | some i =>
    obtain ⟨v, h1, _⟩ := hp
    refine ⟨some h.vmaps.length, _, rfl, ⟨List.prefix_rfl, List.prefix_rfl, List.prefix_rfl, List.prefix_rfl, List.prefix_rfl, List.prefix_rfl, List.prefix_rfl, List.prefix_append ..⟩,
      rfl, rfl, .inr ⟨i, _, v, rfl, rfl, prefix_get (List.prefix_append ..) h1, ?_⟩, fun j e => by cases e; exact Nat.le_refl _⟩
    simp [held, h1]

theorem shallow_defs (h : Mem) {p : Option Nat} {R : Nat → JS → Prop} {m : Option (List (String × Option JS))} (hp : IsMap h R p m) :
    ∃ p' h', memShallowDefs p h = (.ok p', h') ∧ Pre h h' ∧ h'.nodes = h.nodes ∧ h'.vmaps = h.vmaps ∧ Alike h'.maps p p' ∧ ∀ i, p' = some i → h.maps.length ≤ i := by
  cases p with
  | none => exact ⟨none, h, rfl, .refl h, rfl, rfl, .inl ⟨rfl, rfl⟩, fun i e => by cases e⟩
  | some i =>
    cases m with
    | none => exact hp.elim
    | some l =>
    obtain ⟨v, h1, _⟩ := hp
    refine ⟨some h.maps.length, _, rfl, ⟨List.prefix_rfl, List.prefix_rfl, List.prefix_rfl, List.prefix_rfl, List.prefix_rfl, List.prefix_rfl, List.prefix_append .., List.prefix_rfl⟩,
      rfl, rfl, .inr ⟨i, _, v, rfl, rfl, prefix_get (List.prefix_append ..) h1, ?_⟩, fun j e => by cases e; exact Nat.le_refl _⟩
    simp [held, h1]

theorem Alike.pre {α : Type} {st st' : List α} {p p' : Option Nat} (h : Alike st p p') (e : st <+: st') : Alike st' p p' := by
  rcases h with h | ⟨i, j, v, h1, h2, h3, h4⟩
  · exact .inl h
  · exact .inr ⟨i, j, v, h1, h2, prefix_get e h3, prefix_get e h4⟩

/-- A shallow copy: one new schema object, with maps of its own. -/
theorem shallow_run {h : Mem} {a n : Nat} {s : JS} (hs : IsSchemaTo h n a s) : ∃ x x' h', h.nodes[a]? = some x ∧ memShallow a h = (.ok h.nodes.length, h') ∧ Pre h h' ∧
    h'.nodes = h.nodes ++ [x'] ∧ Twin h' x x' ∧ (∀ i, x'.annotations = some i → h.vmaps.length ≤ i) ∧ (∀ i, x'.facetDefinitions = some i → h.maps.length ≤ i) ∧
    ∀ i, x'.facetData = some i → h.vmaps.length ≤ i := by
  cases n with
  | zero => exact hs.elim
  | succ n =>
    obtain ⟨x, hx, hn⟩ := hs
    obtain ⟨p1, h1, e1, f1, g1, k1, a1, l1⟩ := shallow_vmap h hn.annotations
    obtain ⟨p2, h2, e2, f2, g2, k2, a2, l2⟩ := shallow_defs h1 (nodeImp (R' := IsSchemaTo h n) hn (fun q _ => f1.keeps q) fun _ _ _ r => r).facetDefinitions
    obtain ⟨p3, h3, e3, f3, g3, k3, a3, l3⟩ := shallow_vmap h2 (nodeImp (R' := IsSchemaTo h n) hn (fun q _ => (f1.trans f2).keeps q) fun _ _ _ r => r).facetData
    have hl : h3.nodes = h.nodes := g3.trans (g2.trans g1)
    have f := f1.trans (f2.trans f3)
    refine ⟨x, { x with annotations := p1, facetDefinitions := p2, facetData := p3 }, { h3 with nodes := h3.nodes ++ [{ x with annotations := p1, facetDefinitions := p2, facetData := p3 }] },
      hx, ?_, ⟨f.nodes.trans (List.prefix_append ..), f.nats, f.bools, f.strs, f.vals, f.ptrs, f.maps, f.vmaps⟩, by rw [hl], ⟨rfl, a1.pre (f2.trans f3).vmaps, a2.pre f3.maps, a3⟩,
      l1, fun i e => k1 ▸ l2 i e, fun i e => Nat.le_trans f1.vmaps.length_le (k2 ▸ l3 i e)⟩
    simp only [memShallow, hx, M.bind, e1, e2, e3, Mem.newNode, hl]

/-! ## Changes of one schema object -/

theorem isNode_nodes {h : Mem} {l : List SNode} {R : Nat → JS → Prop} {x : SNode} {s : JS} (hn : IsNode { h with nodes := l } R x s) : IsNode h R x s where
  core := ⟨hn.core.maxLength, hn.core.minLength, hn.core.maxItems, hn.core.minItems, hn.core.maxContains, hn.core.minContains, hn.core.maxProperties, hn.core.minProperties,
    hn.core.uniqueItems, hn.core.additionalProperties, hn.core.required, hn.core.enum, hn.core.examples, hn.core.flat⟩
  allOf := hn.allOf
  anyOf := hn.anyOf
  oneOf := hn.oneOf
  not_ := hn.not_
  if_ := hn.if_
  then_ := hn.then_
  else_ := hn.else_
  items := hn.items
  propertyNames := hn.propertyNames
  properties := hn.properties
  patternProperties := hn.patternProperties
  definitions := hn.definitions
  facetDefinitions := hn.facetDefinitions
  annotations := hn.annotations
  facetData := hn.facetData

/-- Objects that exist and are not schemas are the same. -/
def Rest (h h' : Mem) : Prop := ∀ q, (∀ i, q ≠ .node i) → Keeps h h' q

theorem nodeRest {h h' : Mem} (e : Rest h h') {R R' : Nat → JS → Prop} {x : SNode} {s : JS} (hn : IsNode h R x s) (hs : ∀ b s, R b s → R' b s) : IsNode h' R' x s := by
  refine isNode_nodes (l := h.nodes) (nodeImp hn (fun q _ => ?_) fun b _ => hs b)
  cases q with
  | node i => exact fun v hv => hv
  | nat i => exact e (.nat i) fun _ e => by cases e
  | bool i => exact e (.bool i) fun _ e => by cases e
  | strs i => exact e (.strs i) fun _ e => by cases e
  | vals i => exact e (.vals i) fun _ e => by cases e
  | ptrs i => exact e (.ptrs i) fun _ e => by cases e
  | map i => exact e (.map i) fun _ e => by cases e
  | vmap i => exact e (.vmap i) fun _ e => by cases e

/-- Schemas that are less deep than the one at `a` do not contain it. -/
theorem isSchemaTo_below {h h' : Mem} {a : Nat} (e : Rest h h') (he : ∀ b, b ≠ a → Keeps h h' (.node b)) {n : Nat} (hn : ∀ m, m ≤ n → ∀ s, ¬ IsSchemaTo h m a s) :
    ∀ {m}, m ≤ n → ∀ b t, IsSchemaTo h m b t → IsSchemaTo h' m b t
  | 0, _, _, _, ht => ht.elim
  | m + 1, hm, b, t, ht => by
    have hb : b ≠ a := fun hb => hn _ hm t (hb ▸ ht)
    obtain ⟨x, h1, h2⟩ := ht
    exact ⟨x, he b hb x h1, nodeRest e h2 fun b s r => isSchemaTo_below e he hn (by omega) b s r⟩

end GoRaml.SMem
