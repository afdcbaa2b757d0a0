import Verif.Spec.SchemaMem

/-!
# Copies of schemas in memory: proofs
-/

namespace GoRaml.SMem

open GoRaml GoRaml.Spec

/-! ## Memory that grows -/

/-- What the object held is still there. -/
def Keeps (h h' : Mem) : Cell → Prop
  | .node i => ∀ v, h.nodes[i]? = some v → h'.nodes[i]? = some v
  | .nat i => ∀ v, h.nats[i]? = some v → h'.nats[i]? = some v
  | .bool i => ∀ v, h.bools[i]? = some v → h'.bools[i]? = some v
  | .strs i => ∀ v, h.strs[i]? = some v → h'.strs[i]? = some v
  | .vals i => ∀ v, h.vals[i]? = some v → h'.vals[i]? = some v
  | .ptrs i => ∀ v, h.ptrs[i]? = some v → h'.ptrs[i]? = some v
  | .map i => ∀ v, h.maps[i]? = some v → h'.maps[i]? = some v
  | .vmap i => ∀ v, h.vmaps[i]? = some v → h'.vmaps[i]? = some v

theorem Keeps.of_same {h h' : Mem} {q : Cell} (e : SameCell h h' q) : Keeps h h' q := by
  cases q <;> intro v hv <;> exact e.trans hv

/-- New objects only. -/
structure Pre (h h' : Mem) : Prop where
  nodes : h.nodes <+: h'.nodes
  nats : h.nats <+: h'.nats
  bools : h.bools <+: h'.bools
  strs : h.strs <+: h'.strs
  vals : h.vals <+: h'.vals
  ptrs : h.ptrs <+: h'.ptrs
  maps : h.maps <+: h'.maps
  vmaps : h.vmaps <+: h'.vmaps

theorem Pre.refl (h : Mem) : Pre h h := ⟨List.prefix_rfl, List.prefix_rfl, List.prefix_rfl, List.prefix_rfl, List.prefix_rfl, List.prefix_rfl, List.prefix_rfl, List.prefix_rfl⟩

theorem Pre.trans {h h' h'' : Mem} (a : Pre h h') (b : Pre h' h'') : Pre h h'' :=
  ⟨a.nodes.trans b.nodes, a.nats.trans b.nats, a.bools.trans b.bools, a.strs.trans b.strs, a.vals.trans b.vals, a.ptrs.trans b.ptrs, a.maps.trans b.maps, a.vmaps.trans b.vmaps⟩

theorem prefix_get {α : Type} {l l' : List α} (p : l <+: l') {i : Nat} {v : α} (e : l[i]? = some v) : l'[i]? = some v := by
  obtain ⟨t, rfl⟩ := p
  rw [List.getElem?_append_left (List.getElem?_eq_some_iff.1 e).1]
  exact e

theorem prefix_same {α : Type} {l l' : List α} (p : l <+: l') {i : Nat} (e : i < l.length) : l'[i]? = l[i]? := by
  obtain ⟨t, rfl⟩ := p
  exact List.getElem?_append_left e

theorem Pre.keeps {h h' : Mem} (p : Pre h h') (q : Cell) : Keeps h h' q := by
  cases q with
  | node i => exact fun _ => prefix_get p.nodes
  | nat i => exact fun _ => prefix_get p.nats
  | bool i => exact fun _ => prefix_get p.bools
  | strs i => exact fun _ => prefix_get p.strs
  | vals i => exact fun _ => prefix_get p.vals
  | ptrs i => exact fun _ => prefix_get p.ptrs
  | map i => exact fun _ => prefix_get p.maps
  | vmap i => exact fun _ => prefix_get p.vmaps

theorem Pre.same {h h' : Mem} (p : Pre h h') {q : Cell} (e : IsCell h q) : SameCell h h' q := by
  cases q with
  | node i => exact prefix_same p.nodes e
  | nat i => exact prefix_same p.nats e
  | bool i => exact prefix_same p.bools e
  | strs i => exact prefix_same p.strs e
  | vals i => exact prefix_same p.vals e
  | ptrs i => exact prefix_same p.ptrs e
  | map i => exact prefix_same p.maps e
  | vmap i => exact prefix_same p.vmaps e

/-! ## What a schema is stays so -/

theorem forall₂_imp_mem {α β : Type} {R S : α → β → Prop} {l : List α} {m : List β} (h : List.Forall₂ R l m) (hs : ∀ a ∈ l, ∀ b, R a b → S a b) : List.Forall₂ S l m := by
  induction h with
  | nil => exact .nil
  | cons r _ ih => exact .cons (hs _ (List.mem_cons_self ..) _ r) (ih fun a ha => hs a (List.mem_cons_of_mem _ ha))

theorem refImp {R R' : Nat → JS → Prop} {p : Option Nat} {s : Option JS} (h : IsRef R p s) (hs : ∀ b, p = some b → ∀ s, R b s → R' b s) : IsRef R' p s := by
  cases p <;> cases s <;> simp only [IsRef] at h ⊢
  exact hs _ rfl _ h

theorem entriesImp {R R' : Nat → JS → Prop} {ps : List (String × Option Nat)} {l : List (String × Option JS)} (h : IsEntries R ps l)
    (hs : ∀ k b, (k, some b) ∈ ps → ∀ s, R b s → R' b s) : IsEntries R' ps l := by
  refine forall₂_imp_mem h fun e he f hf => ⟨hf.1, refImp hf.2 fun b hb => hs e.1 b ?_⟩
  obtain ⟨k, p⟩ := e
  cases hb
  exact he

/-- The schemas next to a schema. -/
inductive Next (h : Mem) (x : SNode) (b : Nat) : Prop where
  | ref : Points x (.node b) → Next h x b
  | member {i l} : Points x (.ptrs i) → h.ptrs[i]? = some l → some b ∈ l → Next h x b
  | entry {i l k} : Points x (.map i) → h.maps[i]? = some l → (k, some b) ∈ l → Next h x b

theorem listImp {h h' : Mem} {R R' : Nat → JS → Prop} {p : Option Nat} {l : List (Option JS)} (hl : IsList h R p l)
    (hk : ∀ i, p = some i → Keeps h h' (.ptrs i)) (hs : ∀ i m b, p = some i → h.ptrs[i]? = some m → some b ∈ m → ∀ s, R b s → R' b s) : IsList h' R' p l := by
  obtain ⟨ps, h1, h2⟩ := hl
  cases p with
  | none =>
    refine ⟨ps, h1, forall₂_imp_mem h2 fun q hq s r => ?_⟩
    cases h1
    cases hq
  | some i => exact ⟨ps, hk i rfl _ h1, forall₂_imp_mem h2 fun q hq s r => refImp r fun b hb => hs i ps b rfl h1 (hb ▸ hq)⟩

theorem mapImp {h h' : Mem} {R R' : Nat → JS → Prop} {p : Option Nat} {m : Option (List (String × Option JS))} (hl : IsMap h R p m)
    (hk : ∀ i, p = some i → Keeps h h' (.map i)) (hs : ∀ i m k b, p = some i → h.maps[i]? = some m → (k, some b) ∈ m → ∀ s, R b s → R' b s) : IsMap h' R' p m := by
  cases p <;> cases m <;> simp only [IsMap] at hl ⊢
  obtain ⟨ps, h1, h2⟩ := hl
  exact ⟨ps, hk _ rfl _ h1, entriesImp h2 fun k b hb => hs _ ps k b rfl h1 hb⟩

theorem defs_imp {h h' : Mem} {R R' : Nat → JS → Prop} {p : Option Nat} {l : List (String × Option JS)} (hl : ∃ ps, Contains h.maps p ps ∧ IsEntries R ps l)
    (hk : ∀ i, p = some i → Keeps h h' (.map i)) (hs : ∀ i m k b, p = some i → h.maps[i]? = some m → (k, some b) ∈ m → ∀ s, R b s → R' b s) :
    ∃ ps, Contains h'.maps p ps ∧ IsEntries R' ps l := by
  obtain ⟨ps, h1, h2⟩ := hl
  cases p with
  | none => cases h1; exact ⟨[], rfl, entriesImp h2 fun k b hb => by cases hb⟩
  | some i => exact ⟨ps, hk _ rfl _ h1, entriesImp h2 fun k b hb => hs i ps k b rfl h1 hb⟩

theorem derefImp {α : Type} {st st' : List α} {p : Option Nat} {v : Option α} (h : Deref st p v) (hk : ∀ i, p = some i → ∀ x, st[i]? = some x → st'[i]? = some x) :
    Deref st' p v := by
  cases p with
  | none => exact h
  | some i =>
    obtain ⟨x, h1, h2⟩ := h
    exact ⟨x, hk i rfl x h1, h2⟩

theorem containsImp {α : Type} {st st' : List (List α)} {p : Option Nat} {v : List α} (h : Contains st p v)
    (hk : ∀ i, p = some i → ∀ x, st[i]? = some x → st'[i]? = some x) : Contains st' p v := by
  cases p with
  | none => exact h
  | some i => exact hk i rfl v h

theorem coreImp {h h' : Mem} {x : SNode} {c : JSCore} (hc : IsCore h x c) (hk : ∀ q, Points x q → Keeps h h' q) : IsCore h' x c where
  maxLength := derefImp hc.maxLength fun i e => hk (.nat i) (.nat (by simp [e]))
  minLength := derefImp hc.minLength fun i e => hk (.nat i) (.nat (by simp [e]))
  maxItems := derefImp hc.maxItems fun i e => hk (.nat i) (.nat (by simp [e]))
  minItems := derefImp hc.minItems fun i e => hk (.nat i) (.nat (by simp [e]))
  maxContains := derefImp hc.maxContains fun i e => hk (.nat i) (.nat (by simp [e]))
  minContains := derefImp hc.minContains fun i e => hk (.nat i) (.nat (by simp [e]))
  maxProperties := derefImp hc.maxProperties fun i e => hk (.nat i) (.nat (by simp [e]))
  minProperties := derefImp hc.minProperties fun i e => hk (.nat i) (.nat (by simp [e]))
  uniqueItems := derefImp hc.uniqueItems fun i e => hk (.bool i) (.bool (by simp [e]))
  additionalProperties := derefImp hc.additionalProperties fun i e => hk (.bool i) (.bool (by simp [e]))
  required := containsImp hc.required fun i e => hk (.strs i) (.strs e)
  enum := containsImp hc.enum fun i e => hk (.vals i) (.vals (by simp [e]))
  examples := containsImp hc.examples fun i e => hk (.vals i) (.vals (by simp [e]))
  flat := hc.flat

theorem nodeImp {h h' : Mem} {R R' : Nat → JS → Prop} {x : SNode} {s : JS} (hn : IsNode h R x s) (hk : ∀ q, Points x q → Keeps h h' q)
    (hs : ∀ b, Next h x b → ∀ s, R b s → R' b s) : IsNode h' R' x s where
  core := coreImp hn.core hk
  allOf := listImp hn.allOf (fun i e => hk (.ptrs i) (.ptrs (by simp [e]))) fun i m b e hi hb => hs b (.member (.ptrs (by simp [e])) hi hb)
  anyOf := listImp hn.anyOf (fun i e => hk (.ptrs i) (.ptrs (by simp [e]))) fun i m b e hi hb => hs b (.member (.ptrs (by simp [e])) hi hb)
  oneOf := listImp hn.oneOf (fun i e => hk (.ptrs i) (.ptrs (by simp [e]))) fun i m b e hi hb => hs b (.member (.ptrs (by simp [e])) hi hb)
  not_ := refImp hn.not_ fun b e => hs b (.ref (.node (by simp [e])))
  if_ := refImp hn.if_ fun b e => hs b (.ref (.node (by simp [e])))
  then_ := refImp hn.then_ fun b e => hs b (.ref (.node (by simp [e])))
  else_ := refImp hn.else_ fun b e => hs b (.ref (.node (by simp [e])))
  items := refImp hn.items fun b e => hs b (.ref (.node (by simp [e])))
  propertyNames := refImp hn.propertyNames fun b e => hs b (.ref (.node (by simp [e])))
  properties := mapImp hn.properties (fun i e => hk (.map i) (.map (by simp [e]))) fun i m k b e hi hb => hs b (.entry (.map (by simp [e])) hi hb)
  patternProperties := mapImp hn.patternProperties (fun i e => hk (.map i) (.map (by simp [e]))) fun i m k b e hi hb => hs b (.entry (.map (by simp [e])) hi hb)
  facetDefinitions := mapImp hn.facetDefinitions (fun i e => hk (.map i) (.map (by simp [e]))) fun i m k b e hi hb => hs b (.entry (.map (by simp [e])) hi hb)
  definitions := defs_imp hn.definitions (fun i e => hk (.map i) (.map (by simp [e]))) fun i m k b e hi hb => hs b (.entry (.map (by simp [e])) hi hb)
  annotations := derefImp hn.annotations fun i e => hk (.vmap i) (.vmap (by simp [e]))
  facetData := derefImp hn.facetData fun i e => hk (.vmap i) (.vmap (by simp [e]))

theorem isSchemaTo_pre {h h' : Mem} (p : Pre h h') : ∀ {n a s}, IsSchemaTo h n a s → IsSchemaTo h' n a s
  | 0, _, _, hs => hs.elim
  | _ + 1, _, _, ⟨x, h1, h2⟩ => ⟨x, prefix_get p.nodes h1, nodeImp h2 (fun q _ => p.keeps q) fun _ _ _ r => isSchemaTo_pre p r⟩

theorem isSchemaTo_le {h : Mem} : ∀ {n m a s}, n ≤ m → IsSchemaTo h n a s → IsSchemaTo h m a s
  | 0, _, _, _, _, hs => hs.elim
  | _ + 1, 0, _, _, hnm, _ => by omega
  | _ + 1, _ + 1, _, _, hnm, ⟨x, h1, h2⟩ => ⟨x, h1, nodeImp h2 (fun q _ => (Pre.refl h).keeps q) fun _ _ _ r => isSchemaTo_le (by omega) r⟩

/-- What a schema is depends only on the objects it consists of. -/
theorem isSchemaTo_same {h h' : Mem} {a : Nat} (hs : ∀ q, Consists h a q → SameCell h h' q) :
    ∀ {n b s}, Consists h a (.node b) → IsSchemaTo h n b s → IsSchemaTo h' n b s
  | 0, _, _, _, hb => hb.elim
  | n + 1, b, s, hb, ⟨x, h1, h2⟩ => by
    refine ⟨x, Keeps.of_same (hs _ hb) x h1, nodeImp h2 (fun q hq => Keeps.of_same (hs q (.field hb h1 hq))) fun c hc s r => isSchemaTo_same hs ?_ r⟩
    cases hc with
    | ref hp => exact .field hb h1 hp
    | member hp hl hm => exact .member (.field hb h1 hp) hl hm
    | entry hp hl hm => exact .entry (.field hb h1 hp) hl hm

/-! ## The objects of a schema exist -/

/-- The object exists and leads to schemas. -/
def Ok (h : Mem) : Cell → Prop
  | .node i => ∃ n s, IsSchemaTo h n i s
  | .ptrs i => ∃ l, h.ptrs[i]? = some l ∧ ∀ b, some b ∈ l → ∃ n s, IsSchemaTo h n b s
  | .map i => ∃ l, h.maps[i]? = some l ∧ ∀ k b, (k, some b) ∈ l → ∃ n s, IsSchemaTo h n b s
  | q => IsCell h q

theorem lt_of_get {α : Type} {l : List α} {i : Nat} {v : α} (e : l[i]? = some v) : i < l.length := (List.getElem?_eq_some_iff.1 e).1

theorem Ok.isCell {h : Mem} {q : Cell} (hq : Ok h q) : IsCell h q := by
  cases q with
  | node i =>
    obtain ⟨n, s, hs⟩ := hq
    cases n with
    | zero => exact hs.elim
    | succ n => exact lt_of_get hs.choose_spec.1
  | ptrs i => exact lt_of_get hq.choose_spec.1
  | map i => exact lt_of_get hq.choose_spec.1
  | _ => exact hq

theorem deref_lt {α : Type} {st : List α} {i : Nat} {v : Option α} (h : Deref st (some i) v) : i < st.length := lt_of_get h.choose_spec.1

theorem ref_ok {R : Nat → JS → Prop} {b : Nat} {s : Option JS} (h : IsRef R (some b) s) : ∃ s, R b s := by
  cases s with
  | none => exact h.elim
  | some s => exact ⟨s, h⟩

theorem forall₂_mem {α β : Type} {R : α → β → Prop} {l : List α} {m : List β} (h : List.Forall₂ R l m) {a : α} (ha : a ∈ l) : ∃ b, R a b := by
  induction h with
  | nil => cases ha
  | cons r _ ih =>
    cases ha with
    | head => exact ⟨_, r⟩
    | tail _ ha => exact ih ha

theorem list_ok {h : Mem} {n i : Nat} {l : List (Option JS)} (hl : IsList h (IsSchemaTo h n) (some i) l) : Ok h (.ptrs i) := by
  obtain ⟨ps, h1, h2⟩ := hl
  refine ⟨ps, h1, fun b hb => ?_⟩
  obtain ⟨s, hs⟩ := forall₂_mem h2 hb
  obtain ⟨s, hs⟩ := ref_ok hs
  exact ⟨n, s, hs⟩

theorem entries_ok {h : Mem} {n : Nat} {ps : List (String × Option Nat)} {l : List (String × Option JS)} (hl : IsEntries (IsSchemaTo h n) ps l) {k : String} {b : Nat}
    (hb : (k, some b) ∈ ps) : ∃ n s, IsSchemaTo h n b s := by
  obtain ⟨s, hs⟩ := forall₂_mem hl hb
  obtain ⟨s, hs⟩ := ref_ok hs.2
  exact ⟨n, s, hs⟩

theorem map_ok {h : Mem} {n i : Nat} {l : Option (List (String × Option JS))} (hl : IsMap h (IsSchemaTo h n) (some i) l) : Ok h (.map i) := by
  cases l with
  | none => exact hl.elim
  | some l =>
    obtain ⟨ps, h1, h2⟩ := hl
    exact ⟨ps, h1, fun k b hb => entries_ok h2 hb⟩

theorem points_ok {h : Mem} {n : Nat} {x : SNode} {s : JS} (hn : IsNode h (IsSchemaTo h n) x s) {q : Cell} (hq : Points x q) : Ok h q := by
  cases hq with
  | nat e =>
    simp only [List.mem_cons, List.not_mem_nil, or_false] at e
    rcases e with e | e | e | e | e | e | e | e
    · exact deref_lt (e ▸ hn.core.maxLength)
    · exact deref_lt (e ▸ hn.core.minLength)
    · exact deref_lt (e ▸ hn.core.maxItems)
    · exact deref_lt (e ▸ hn.core.minItems)
    · exact deref_lt (e ▸ hn.core.maxContains)
    · exact deref_lt (e ▸ hn.core.minContains)
    · exact deref_lt (e ▸ hn.core.maxProperties)
    · exact deref_lt (e ▸ hn.core.minProperties)
  | bool e =>
    simp only [List.mem_cons, List.not_mem_nil, or_false] at e
    rcases e with e | e
    · exact deref_lt (e ▸ hn.core.uniqueItems)
    · exact deref_lt (e ▸ hn.core.additionalProperties)
  | strs e => exact lt_of_get (show Contains _ (some _) _ from e ▸ hn.core.required)
  | vals e =>
    simp only [List.mem_cons, List.not_mem_nil, or_false] at e
    rcases e with e | e
    · exact lt_of_get (show Contains _ (some _) _ from e ▸ hn.core.enum)
    · exact lt_of_get (show Contains _ (some _) _ from e ▸ hn.core.examples)
  | ptrs e =>
    simp only [List.mem_cons, List.not_mem_nil, or_false] at e
    rcases e with e | e | e
    · exact list_ok (e ▸ hn.allOf)
    · exact list_ok (e ▸ hn.anyOf)
    · exact list_ok (e ▸ hn.oneOf)
  | node e =>
    simp only [List.mem_cons, List.not_mem_nil, or_false] at e
    rcases e with e | e | e | e | e | e
    · exact ⟨n, ref_ok (e ▸ hn.not_)⟩
    · exact ⟨n, ref_ok (e ▸ hn.if_)⟩
    · exact ⟨n, ref_ok (e ▸ hn.then_)⟩
    · exact ⟨n, ref_ok (e ▸ hn.else_)⟩
    · exact ⟨n, ref_ok (e ▸ hn.items)⟩
    · exact ⟨n, ref_ok (e ▸ hn.propertyNames)⟩
  | map e =>
    simp only [List.mem_cons, List.not_mem_nil, or_false] at e
    rcases e with e | e | e | e
    · exact map_ok (e ▸ hn.properties)
    · exact map_ok (e ▸ hn.patternProperties)
    · obtain ⟨ps, h1, h2⟩ := hn.definitions
      rw [← e] at h1
      exact ⟨ps, h1, fun k b hb => entries_ok h2 hb⟩
    · exact map_ok (e ▸ hn.facetDefinitions)
  | vmap e =>
    simp only [List.mem_cons, List.not_mem_nil, or_false] at e
    rcases e with e | e
    · exact deref_lt (e ▸ hn.annotations)
    · exact deref_lt (e ▸ hn.facetData)

theorem consists_ok {h : Mem} {a n : Nat} {s : JS} (hs : IsSchemaTo h n a s) {q : Cell} (hq : Consists h a q) : Ok h q := by
  induction hq with
  | self => exact ⟨n, s, hs⟩
  | field hy hx hp ih =>
    obtain ⟨m, t, ht⟩ := ih
    cases m with
    | zero => exact ht.elim
    | succ m =>
      obtain ⟨x', h1, h2⟩ := ht
      cases hx.symm.trans h1
      exact points_ok h2 hp
  | member hi hl hb ih =>
    obtain ⟨l, h1, h2⟩ := ih
    cases hl.symm.trans h1
    exact h2 _ hb
  | entry hi hl hb ih =>
    obtain ⟨l, h1, h2⟩ := ih
    cases hl.symm.trans h1
    exact h2 _ _ hb

/-! ## Running a copy -/

/-- Not an object of the original, unless one that may be shared. -/
def New (h0 : Mem) (q : Cell) : Prop := IsCell h0 q → Shared h0 q

/-- Objects that were made after `h0` lead to nothing of `h0` but what may be shared. -/
structure Inv (h0 h : Mem) : Prop where
  pre : Pre h0 h
  node : ∀ y x q, h0.nodes.length ≤ y → h.nodes[y]? = some x → Points x q → New h0 q
  ptrs : ∀ i l b, h0.ptrs.length ≤ i → h.ptrs[i]? = some l → some b ∈ l → h0.nodes.length ≤ b
  maps : ∀ i l k b, h0.maps.length ≤ i → h.maps[i]? = some l → (k, some b) ∈ l → h0.nodes.length ≤ b

theorem Inv.refl (h : Mem) : Inv h h where
  pre := .refl h
  node y x q hy hx := by have := lt_of_get hx; omega
  ptrs i l b hi hl := by have := lt_of_get hl; omega
  maps i l k b hi hl := by have := lt_of_get hl; omega

/-- The computation succeeds and makes new objects only. -/
def Run {α : Type} (h0 h : Mem) (m : M Mem α) (Q : Mem → α → Prop) : Prop := ∃ x h', m h = (.ok x, h') ∧ Inv h0 h' ∧ Pre h h' ∧ Q h' x

theorem Run.bind {α β : Type} {h0 h : Mem} {m : M Mem α} {f : α → M Mem β} {Q : Mem → α → Prop} {Q' : Mem → β → Prop} (hm : Run h0 h m Q)
    (hf : ∀ x h', Inv h0 h' → Pre h h' → Q h' x → Run h0 h' (f x) Q') : Run h0 h (M.bind m f) Q' := by
  obtain ⟨x, h', e, i, p, q⟩ := hm
  obtain ⟨y, h'', e', i', p', q'⟩ := hf x h' i p q
  exact ⟨y, h'', by simp only [M.bind, e, e'], i', p.trans p', q'⟩

theorem Run.ret {α : Type} {h0 h : Mem} {x : α} {Q : Mem → α → Prop} (i : Inv h0 h) (q : Q h x) : Run h0 h (M.ret x) Q := ⟨x, h, rfl, i, .refl h, q⟩

theorem append_get {α : Type} {l : List α} {v w : α} {i : Nat} (e : (l ++ [v])[i]? = some w) : l[i]? = some w ∨ (i = l.length ∧ w = v) := by
  rcases Nat.lt_trichotomy i l.length with hi | hi | hi
  · rw [List.getElem?_append_left hi] at e
    exact .inl e
  · subst hi
    simp at e
    exact .inr ⟨rfl, e.symm⟩
  · rw [List.getElem?_eq_none (by simp; omega)] at e
    cases e

theorem append_last {α : Type} (l : List α) (v : α) : (l ++ [v])[l.length]? = some v := by simp

theorem le_of_prefix {α : Type} {l l' : List α} (p : l <+: l') : l.length ≤ l'.length := p.length_le

theorem run_newStrs {h0 h : Mem} (i : Inv h0 h) (l : List String) :
    Run h0 h (Mem.newStrs l) fun h' c => h'.strs[c]? = some l ∧ New h0 (.strs c) := by
  refine ⟨_, _, rfl, ⟨⟨i.pre.nodes, i.pre.nats, i.pre.bools, i.pre.strs.trans (List.prefix_append ..), i.pre.vals, i.pre.ptrs, i.pre.maps, i.pre.vmaps⟩, i.node, i.ptrs, i.maps⟩,
    { Pre.refl h with strs := List.prefix_append .. }, append_last _ _, fun hc => ?_⟩
  have := le_of_prefix i.pre.strs
  have hc : h.strs.length < h0.strs.length := hc
  omega

theorem run_newVals {h0 h : Mem} (i : Inv h0 h) (l : List GoVal) :
    Run h0 h (Mem.newVals l) fun h' c => h'.vals[c]? = some l ∧ New h0 (.vals c) := by
  refine ⟨_, _, rfl, ⟨⟨i.pre.nodes, i.pre.nats, i.pre.bools, i.pre.strs, i.pre.vals.trans (List.prefix_append ..), i.pre.ptrs, i.pre.maps, i.pre.vmaps⟩, i.node, i.ptrs, i.maps⟩,
    { Pre.refl h with vals := List.prefix_append .. }, append_last _ _, fun hc => ?_⟩
  have := le_of_prefix i.pre.vals
  have hc : h.vals.length < h0.vals.length := hc
  omega

theorem run_newVMap {h0 h : Mem} (i : Inv h0 h) (l : List (String × GoVal)) :
    Run h0 h (Mem.newVMap l) fun h' c => h'.vmaps[c]? = some l ∧ New h0 (.vmap c) := by
  refine ⟨_, _, rfl, ⟨⟨i.pre.nodes, i.pre.nats, i.pre.bools, i.pre.strs, i.pre.vals, i.pre.ptrs, i.pre.maps, i.pre.vmaps.trans (List.prefix_append ..)⟩, i.node, i.ptrs, i.maps⟩,
    { Pre.refl h with vmaps := List.prefix_append .. }, append_last _ _, fun hc => ?_⟩
  have := le_of_prefix i.pre.vmaps
  have hc : h.vmaps.length < h0.vmaps.length := hc
  omega

theorem run_newPtrs {h0 h : Mem} (i : Inv h0 h) {l : List (Option Nat)} (hl : ∀ b, some b ∈ l → h0.nodes.length ≤ b) :
    Run h0 h (Mem.newPtrs l) fun h' c => h'.ptrs[c]? = some l ∧ New h0 (.ptrs c) := by
  refine ⟨_, _, rfl, ⟨⟨i.pre.nodes, i.pre.nats, i.pre.bools, i.pre.strs, i.pre.vals, i.pre.ptrs.trans (List.prefix_append ..), i.pre.maps, i.pre.vmaps⟩, i.node, ?_, i.maps⟩,
    { Pre.refl h with ptrs := List.prefix_append .. }, append_last _ _, fun hc => ?_⟩
  · intro j m b hj hm hb
    rcases append_get hm with hm | ⟨_, rfl⟩
    · exact i.ptrs j m b hj hm hb
    · exact hl b hb
  · have := le_of_prefix i.pre.ptrs
    have hc : h.ptrs.length < h0.ptrs.length := hc
    omega

theorem run_newMap {h0 h : Mem} (i : Inv h0 h) {l : List (String × Option Nat)} (hl : ∀ k b, (k, some b) ∈ l → h0.nodes.length ≤ b) :
    Run h0 h (Mem.newMap l) fun h' c => h'.maps[c]? = some l ∧ New h0 (.map c) := by
  refine ⟨_, _, rfl, ⟨⟨i.pre.nodes, i.pre.nats, i.pre.bools, i.pre.strs, i.pre.vals, i.pre.ptrs, i.pre.maps.trans (List.prefix_append ..), i.pre.vmaps⟩, i.node, i.ptrs, ?_⟩,
    { Pre.refl h with maps := List.prefix_append .. }, append_last _ _, fun hc => ?_⟩
  · intro j m k b hj hm hb
    rcases append_get hm with hm | ⟨_, rfl⟩
    · exact i.maps j m k b hj hm hb
    · exact hl k b hb
  · have := le_of_prefix i.pre.maps
    have hc : h.maps.length < h0.maps.length := hc
    omega

theorem run_newNode {h0 h : Mem} (i : Inv h0 h) {x : SNode} (hx : ∀ q, Points x q → New h0 q) :
    Run h0 h (Mem.newNode x) fun h' c => h'.nodes[c]? = some x ∧ h0.nodes.length ≤ c := by
  refine ⟨_, _, rfl, ⟨⟨i.pre.nodes.trans (List.prefix_append ..), i.pre.nats, i.pre.bools, i.pre.strs, i.pre.vals, i.pre.ptrs, i.pre.maps, i.pre.vmaps⟩, ?_, i.ptrs, i.maps⟩,
    { Pre.refl h with nodes := List.prefix_append .. }, append_last _ _, le_of_prefix i.pre.nodes⟩
  intro y z q hy hz hq
  rcases append_get hz with hz | ⟨_, rfl⟩
  · exact i.node y z q hy hz hq
  · exact hx q hq

theorem held_of {α : Type} {st st' : List (List α)} {p : Option Nat} {l : List α} (h : Contains st p l) (pr : st <+: st') : held st' p = l := by
  cases p with
  | none => cases h; rfl
  | some i =>
    have := prefix_get pr h
    simp [held, this]

theorem run_strs {h0 h : Mem} (i : Inv h0 h) {p : Option Nat} {l : List String} (hp : Contains h0.strs p l) :
    Run h0 h (memCopyStrs p) fun h' p' => Contains h'.strs p' l ∧ ∀ c, p' = some c → New h0 (.strs c) := by
  cases l with
  | nil =>
    refine ⟨p, h, by simp only [memCopyStrs, held_of hp i.pre.strs], i, .refl h, containsImp hp fun c _ => i.pre.keeps (.strs c), fun c hc _ => ?_⟩
    subst hc
    exact hp
  | cons a l =>
    have e : memCopyStrs p h = (M.bind (Mem.newStrs (a :: l)) fun i => M.ret (some i)) h := by simp only [memCopyStrs, held_of hp i.pre.strs]
    have r := (run_newStrs i (a :: l)).bind (f := fun i => M.ret (some i)) (Q' := fun h' p' => Contains h'.strs p' (a :: l) ∧ ∀ c, p' = some c → New h0 (.strs c))
      fun c h' i' _ q => .ret i' ⟨q.1, fun d hd => by cases hd; exact q.2⟩
    unfold Run at r ⊢
    rw [e]
    exact r

theorem run_vals {h0 h : Mem} (i : Inv h0 h) {p : Option Nat} {l : List GoVal} (hp : Contains h0.vals p l) :
    Run h0 h (memCopyVals p) fun h' p' => Contains h'.vals p' l ∧ ∀ c, p' = some c → New h0 (.vals c) := by
  cases l with
  | nil =>
    refine ⟨p, h, by simp only [memCopyVals, held_of hp i.pre.vals], i, .refl h, containsImp hp fun c _ => i.pre.keeps (.vals c), fun c hc _ => ?_⟩
    subst hc
    exact hp
  | cons a l =>
    have e : memCopyVals p h = (M.bind (Mem.newVals (a :: l)) fun i => M.ret (some i)) h := by simp only [memCopyVals, held_of hp i.pre.vals]
    have r := (run_newVals i (a :: l)).bind (f := fun i => M.ret (some i)) (Q' := fun h' p' => Contains h'.vals p' (a :: l) ∧ ∀ c, p' = some c → New h0 (.vals c))
      fun c h' i' _ q => .ret i' ⟨q.1, fun d hd => by cases hd; exact q.2⟩
    unfold Run at r ⊢
    rw [e]
    exact r

theorem run_vmap {h0 h : Mem} (i : Inv h0 h) {p : Option Nat} {l : Option (List (String × GoVal))} (hp : Deref h0.vmaps p l) :
    Run h0 h (memCopyVMap p) fun h' p' => Deref h'.vmaps p' l ∧ ∀ c, p' = some c → New h0 (.vmap c) := by
  cases p with
  | none => exact .ret i ⟨hp, fun c hc => by cases hc⟩
  | some j =>
    obtain ⟨m, h1, rfl⟩ := hp
    have e : held h.vmaps (some j) = m := by simp [held, prefix_get i.pre.vmaps h1]
    have r := (run_newVMap i m).bind (f := fun i => M.ret (some i)) (Q' := fun h' p' => Deref h'.vmaps p' (some m) ∧ ∀ c, p' = some c → New h0 (.vmap c))
      fun c h' i' _ q => .ret i' ⟨⟨m, q.1, rfl⟩, fun d hd => by cases hd; exact q.2⟩
    unfold Run at r ⊢
    simp only [memCopyVMap, e]
    exact r

/-- What is shown of the recursive call. -/
def RecOk (h0 : Mem) (n : Nat) (rec : Nat → M Mem Nat) : Prop :=
  ∀ a s h, Inv h0 h → IsSchemaTo h0 n a s → Run h0 h (rec a) fun h' c => IsSchemaTo h' n c s ∧ h0.nodes.length ≤ c

theorem run_ref {h0 h : Mem} {n : Nat} {rec : Nat → M Mem Nat} (hr : RecOk h0 n rec) (i : Inv h0 h) {p : Option Nat} {s : Option JS} (hp : IsRef (IsSchemaTo h0 n) p s) :
    Run h0 h (memCopyRef rec p) fun h' p' => IsRef (IsSchemaTo h' n) p' s ∧ ∀ c, p' = some c → h0.nodes.length ≤ c := by
  cases p with
  | none => exact .ret i ⟨by cases s <;> exact hp, fun c hc => by cases hc⟩
  | some a =>
    cases s with
    | none => exact hp.elim
    | some s => exact (hr a s h i hp).bind fun c h' i' _ q => .ret i' ⟨q.1, fun d hd => by cases hd; exact q.2⟩

theorem run_collect {α β γ : Type} {h0 : Mem} {f : α → M Mem β} {R0 : α → γ → Prop} {R : Mem → β → γ → Prop} {P : β → Prop}
    (hR : ∀ h h' b c, Pre h h' → R h b c → R h' b c) (hf : ∀ a c h, Inv h0 h → R0 a c → Run h0 h (f a) fun h' b => R h' b c ∧ P b) {l : List α} {m : List γ}
    (hl : List.Forall₂ R0 l m) : ∀ {h : Mem}, Inv h0 h → Run h0 h (M.collect f l) fun h' l' => List.Forall₂ (R h') l' m ∧ ∀ b ∈ l', P b := by
  induction hl with
  | nil => exact fun i => .ret i ⟨.nil, fun b hb => by cases hb⟩
  | cons r _ ih =>
    intro h i
    refine (hf _ _ h i r).bind fun y h1 i1 _ q1 => (ih i1).bind fun ys h2 i2 p2 q2 => .ret i2 ⟨.cons (hR _ _ _ _ p2 q1.1) q2.1, fun b hb => ?_⟩
    cases hb with
    | head => exact q1.2
    | tail _ hb => exact q2.2 b hb

theorem isRef_pre {h h' : Mem} (p : Pre h h') {n : Nat} {q : Option Nat} {s : Option JS} (hq : IsRef (IsSchemaTo h n) q s) : IsRef (IsSchemaTo h' n) q s :=
  refImp hq fun _ _ _ r => isSchemaTo_pre p r

theorem run_ptrs {h0 h : Mem} {n : Nat} {rec : Nat → M Mem Nat} (hr : RecOk h0 n rec) (i : Inv h0 h) {p : Option Nat} {l : List (Option JS)}
    (hp : IsList h0 (IsSchemaTo h0 n) p l) : Run h0 h (memCopyPtrs rec p) fun h' p' => IsList h' (IsSchemaTo h' n) p' l ∧ ∀ c, p' = some c → New h0 (.ptrs c) := by
  obtain ⟨ps, h1, h2⟩ := hp
  cases hps : ps with
  | nil =>
    subst hps
    refine ⟨p, h, by simp only [memCopyPtrs, held_of h1 i.pre.ptrs], i, .refl h, ?_, fun c hc _ => ?_⟩
    · cases h2
      exact ⟨[], containsImp h1 fun c _ => i.pre.keeps (.ptrs c), .nil⟩
    · subst hc
      exact h1
  | cons a ps' =>
    have e : memCopyPtrs rec p h = (M.bind (M.collect (memCopyRef rec) ps) fun l' => M.bind (Mem.newPtrs l') fun i => M.ret (some i)) h := by
      simp only [memCopyPtrs, held_of h1 i.pre.ptrs, hps]
    have r := (run_collect (f := memCopyRef rec) (R := fun h' => IsRef (IsSchemaTo h' n)) (P := fun b => ∀ c, b = some c → h0.nodes.length ≤ c)
        (fun _ _ _ _ pr hq => isRef_pre pr hq) (fun a c h i ha => run_ref hr i ha) h2 i).bind
      (f := fun l' => M.bind (Mem.newPtrs l') fun i => M.ret (some i))
      (Q' := fun h' p' => IsList h' (IsSchemaTo h' n) p' l ∧ ∀ c, p' = some c → New h0 (.ptrs c))
      fun l' h1 i1 _ q1 => (run_newPtrs i1 fun b hb => q1.2 _ hb b rfl).bind fun c h2 i2 p2 q2 =>
        .ret i2 ⟨⟨l', q2.1, q1.1.imp fun _ _ hq => isRef_pre p2 hq⟩, fun d hd => by cases hd; exact q2.2⟩
    unfold Run at r ⊢
    rw [e]
    exact r

theorem run_entries {h0 h : Mem} {n : Nat} {rec : Nat → M Mem Nat} (hr : RecOk h0 n rec) (i : Inv h0 h) {ps : List (String × Option Nat)} {l : List (String × Option JS)}
    (hp : IsEntries (IsSchemaTo h0 n) ps l) : Run h0 h (M.bind (M.collect (memCopyEntry rec) ps) fun l' => M.bind (Mem.newMap l') fun i => M.ret (some i))
      fun h' p' => ∃ c l', p' = some c ∧ h'.maps[c]? = some l' ∧ IsEntries (IsSchemaTo h' n) l' l ∧ New h0 (.map c) := by
  refine (run_collect (f := memCopyEntry rec) (R := fun h' (e : String × Option Nat) (f : String × Option JS) => e.1 = f.1 ∧ IsRef (IsSchemaTo h' n) e.2 f.2) (P := fun e => ∀ c, e.2 = some c → h0.nodes.length ≤ c)
    (fun _ _ _ _ pr hq => ⟨hq.1, isRef_pre pr hq.2⟩)
    (fun a c h i ha => (run_ref hr i ha.2).bind fun q h' i' _ hq => .ret i' ⟨⟨ha.1, hq.1⟩, hq.2⟩) hp i).bind
    fun l' h1 i1 _ q1 => (run_newMap i1 fun k b hb => q1.2 _ hb b rfl).bind fun c h2 i2 p2 q2 =>
      .ret i2 ⟨c, l', rfl, q2.1, q1.1.imp fun _ _ hq => ⟨hq.1, isRef_pre p2 hq.2⟩, q2.2⟩

theorem run_map {h0 h : Mem} {n : Nat} {rec : Nat → M Mem Nat} (hr : RecOk h0 n rec) (i : Inv h0 h) {p : Option Nat} {ps : List (String × Option Nat)}
    {l : List (String × Option JS)} (h1 : Contains h0.maps p ps) (h2 : IsEntries (IsSchemaTo h0 n) ps l) :
    Run h0 h (memCopyMap rec p) fun h' p' => (∃ ps', Contains h'.maps p' ps' ∧ IsEntries (IsSchemaTo h' n) ps' l) ∧ (p = none ↔ p' = none) ∧
      ∀ c, p' = some c → New h0 (.map c) := by
  cases hps : ps with
  | nil =>
    subst hps
    refine ⟨p, h, by simp only [memCopyMap, held_of h1 i.pre.maps], i, .refl h, ⟨[], containsImp h1 fun c _ => i.pre.keeps (.map c), ?_⟩, Iff.rfl, fun c hc _ => ?_⟩
    · cases h2
      exact .nil
    · subst hc
      exact h1
  | cons a ps' =>
    have e : memCopyMap rec p h = (M.bind (M.collect (memCopyEntry rec) ps) fun l' => M.bind (Mem.newMap l') fun i => M.ret (some i)) h := by
      simp only [memCopyMap, held_of h1 i.pre.maps, hps]
    obtain ⟨x, h', e', i', p', c, l', rfl, q1, q2, q3⟩ := run_entries hr i h2
    refine ⟨some c, h', e.trans e', i', p', ⟨l', q1, q2⟩, ?_, fun d hd => by cases hd; exact q3⟩
    cases p with
    | none =>
      subst hps
      cases h1
    | some _ => simp

theorem run_optMap {h0 h : Mem} {n : Nat} {rec : Nat → M Mem Nat} (hr : RecOk h0 n rec) (i : Inv h0 h) {p : Option Nat} {m : Option (List (String × Option JS))}
    (hp : IsMap h0 (IsSchemaTo h0 n) p m) :
    Run h0 h (memCopyMap rec p) fun h' p' => IsMap h' (IsSchemaTo h' n) p' m ∧ ∀ c, p' = some c → New h0 (.map c) := by
  cases p with
  | none =>
    cases m with
    | some _ => exact hp.elim
    | none => exact ⟨none, h, rfl, i, .refl h, trivial, fun c hc => by cases hc⟩
  | some j =>
    cases m with
    | none => exact hp.elim
    | some l =>
      obtain ⟨ps, h1, h2⟩ := hp
      obtain ⟨x, h', e', i', p', ⟨ps', q1, q2⟩, q3, q4⟩ := run_map (p := some j) hr i h1 h2
      cases x with
      | none => exact absurd (q3.2 rfl) (by simp)
      | some c => exact ⟨some c, h', e', i', p', ⟨ps', q1, q2⟩, q4⟩

theorem run_defs {h0 h : Mem} {n : Nat} {rec : Nat → M Mem Nat} (hr : RecOk h0 n rec) (i : Inv h0 h) {p : Option Nat} {m : Option (List (String × Option JS))}
    (hp : IsMap h0 (IsSchemaTo h0 n) p m) :
    Run h0 h (memCopyDefs rec p) fun h' p' => IsMap h' (IsSchemaTo h' n) p' m ∧ ∀ c, p' = some c → New h0 (.map c) := by
  cases p with
  | none =>
    cases m with
    | some _ => exact hp.elim
    | none => exact .ret i ⟨trivial, fun c hc => by cases hc⟩
  | some j =>
    cases m with
    | none => exact hp.elim
    | some l =>
      obtain ⟨ps, h1, h2⟩ := hp
      have e : held h.maps (some j) = ps := by simp [held, prefix_get i.pre.maps h1]
      obtain ⟨x, h', e', i', p', c, l', rfl, q1, q2, q3⟩ := run_entries hr i h2
      exact ⟨some c, h', by simp only [memCopyDefs, e]; exact e', i', p', ⟨l', q1, q2⟩, fun d hd => by cases hd; exact q3⟩

theorem run_node {h0 h : Mem} {n : Nat} {rec : Nat → M Mem Nat} (hr : RecOk h0 n rec) (i : Inv h0 h) {x : SNode} {s : JS} (hn : IsNode h0 (IsSchemaTo h0 n) x s) :
    Run h0 h (memCopyNode rec x) fun h' x' => IsNode h' (IsSchemaTo h' n) x' s ∧ ∀ q, Points x' q → New h0 q := by
  obtain ⟨ds, hd1, hd2⟩ := hn.definitions
  refine (run_strs i hn.core.required).bind fun required h1 i1 p1 q1 => ?_
  refine (run_vals i1 hn.core.examples).bind fun examples h2 i2 p2 q2 => ?_
  refine (run_vals i2 hn.core.enum).bind fun enum h3 i3 p3 q3 => ?_
  refine (run_ptrs hr i3 hn.anyOf).bind fun anyOf h4 i4 p4 q4 => ?_
  refine (run_ptrs hr i4 hn.allOf).bind fun allOf h5 i5 p5 q5 => ?_
  refine (run_ptrs hr i5 hn.oneOf).bind fun oneOf h6 i6 p6 q6 => ?_
  refine (run_ref hr i6 hn.not_).bind fun not_ h7 i7 p7 q7 => ?_
  refine (run_ref hr i7 hn.if_).bind fun if_ h8 i8 p8 q8 => ?_
  refine (run_ref hr i8 hn.then_).bind fun then_ h9 i9 p9 q9 => ?_
  refine (run_ref hr i9 hn.else_).bind fun else_ h10 i10 p10 q10 => ?_
  refine (run_ref hr i10 hn.items).bind fun items h11 i11 p11 q11 => ?_
  refine (run_ref hr i11 hn.propertyNames).bind fun propertyNames h12 i12 p12 q12 => ?_
  refine (run_optMap hr i12 hn.properties).bind fun properties h13 i13 p13 q13 => ?_
  refine (run_optMap hr i13 hn.patternProperties).bind fun patternProperties h14 i14 p14 q14 => ?_
  refine (run_map hr i14 hd1 hd2).bind fun definitions h15 i15 p15 q15 => ?_
  refine (run_vmap i15 hn.annotations).bind fun annotations h16 i16 p16 q16 => ?_
  refine (run_defs hr i16 hn.facetDefinitions).bind fun facetDefinitions h17 i17 p17 q17 => ?_
  refine (run_vmap i17 hn.facetData).bind fun facetData h18 i18 p18 q18 => ?_
  have r18 := Pre.refl h18
  have r17 := p18.trans r18
  have r16 := p17.trans r17
  have r15 := p16.trans r16
  have r14 := p15.trans r15
  have r13 := p14.trans r14
  have r12 := p13.trans r13
  have r11 := p12.trans r12
  have r10 := p11.trans r11
  have r9 := p10.trans r10
  have r8 := p9.trans r9
  have r7 := p8.trans r8
  have r6 := p7.trans r7
  have r5 := p6.trans r6
  have r4 := p5.trans r5
  have r3 := p4.trans r4
  have r2 := p3.trans r3
  have r1 := p2.trans r2
  have r0 := i18.pre
  refine .ret i18 ⟨?_, ?_⟩
  · exact {
      core := {
        maxLength := derefImp hn.core.maxLength fun j _ => r0.keeps (.nat j)
        minLength := derefImp hn.core.minLength fun j _ => r0.keeps (.nat j)
        maxItems := derefImp hn.core.maxItems fun j _ => r0.keeps (.nat j)
        minItems := derefImp hn.core.minItems fun j _ => r0.keeps (.nat j)
        maxContains := derefImp hn.core.maxContains fun j _ => r0.keeps (.nat j)
        minContains := derefImp hn.core.minContains fun j _ => r0.keeps (.nat j)
        maxProperties := derefImp hn.core.maxProperties fun j _ => r0.keeps (.nat j)
        minProperties := derefImp hn.core.minProperties fun j _ => r0.keeps (.nat j)
        uniqueItems := derefImp hn.core.uniqueItems fun j _ => r0.keeps (.bool j)
        additionalProperties := derefImp hn.core.additionalProperties fun j _ => r0.keeps (.bool j)
        required := containsImp q1.1 fun j _ => r1.keeps (.strs j)
        enum := containsImp q3.1 fun j _ => r3.keeps (.vals j)
        examples := containsImp q2.1 fun j _ => r2.keeps (.vals j)
        flat := hn.core.flat }
      allOf := listImp q5.1 (fun j _ => r5.keeps (.ptrs j)) fun _ _ _ _ _ _ _ r => isSchemaTo_pre r5 r
      anyOf := listImp q4.1 (fun j _ => r4.keeps (.ptrs j)) fun _ _ _ _ _ _ _ r => isSchemaTo_pre r4 r
      oneOf := listImp q6.1 (fun j _ => r6.keeps (.ptrs j)) fun _ _ _ _ _ _ _ r => isSchemaTo_pre r6 r
      not_ := isRef_pre r7 q7.1
      if_ := isRef_pre r8 q8.1
      then_ := isRef_pre r9 q9.1
      else_ := isRef_pre r10 q10.1
      items := isRef_pre r11 q11.1
      propertyNames := isRef_pre r12 q12.1
      properties := mapImp q13.1 (fun j _ => r13.keeps (.map j)) fun _ _ _ _ _ _ _ _ r => isSchemaTo_pre r13 r
      patternProperties := mapImp q14.1 (fun j _ => r14.keeps (.map j)) fun _ _ _ _ _ _ _ _ r => isSchemaTo_pre r14 r
      facetDefinitions := mapImp q17.1 (fun j _ => r17.keeps (.map j)) fun _ _ _ _ _ _ _ _ r => isSchemaTo_pre r17 r
      definitions := defs_imp q15.1 (fun j _ => r15.keeps (.map j)) fun _ _ _ _ _ _ _ _ r => isSchemaTo_pre r15 r
      annotations := derefImp q16.1 fun j _ => r16.keeps (.vmap j)
      facetData := derefImp q18.1 fun j _ => r18.keeps (.vmap j) }
  · intro q hq
    cases hq with
    | nat _ => exact fun _ => trivial
    | bool _ => exact fun _ => trivial
    | strs e => exact q1.2 _ e
    | vals e =>
      simp only [List.mem_cons, List.not_mem_nil, or_false] at e
      rcases e with e | e
      · exact q3.2 _ e.symm
      · exact q2.2 _ e.symm
    | ptrs e =>
      simp only [List.mem_cons, List.not_mem_nil, or_false] at e
      rcases e with e | e | e
      · exact q5.2 _ e.symm
      · exact q4.2 _ e.symm
      · exact q6.2 _ e.symm
    | @node j e =>
      have hj : h0.nodes.length ≤ j := by
        simp only [List.mem_cons, List.not_mem_nil, or_false] at e
        rcases e with e | e | e | e | e | e
        · exact q7.2 _ e.symm
        · exact q8.2 _ e.symm
        · exact q9.2 _ e.symm
        · exact q10.2 _ e.symm
        · exact q11.2 _ e.symm
        · exact q12.2 _ e.symm
      intro (hc : j < h0.nodes.length)
      omega
    | map e =>
      simp only [List.mem_cons, List.not_mem_nil, or_false] at e
      rcases e with e | e | e | e
      · exact q13.2 _ e.symm
      · exact q14.2 _ e.symm
      · exact q15.2.2 _ e.symm
      · exact q17.2 _ e.symm
    | vmap e =>
      simp only [List.mem_cons, List.not_mem_nil, or_false] at e
      rcases e with e | e
      · exact q16.2 _ e.symm
      · exact q18.2 _ e.symm

theorem recOk (h0 : Mem) : ∀ n, RecOk h0 n (memCopy n)
  | 0 => fun _ _ _ _ hs => hs.elim
  | n + 1 => fun a s h i hs => by
    obtain ⟨x, h1, h2⟩ := hs
    have e : memCopy (n + 1) a h = (M.bind (memCopyNode (memCopy n) x) Mem.newNode) h := by simp only [memCopy, prefix_get i.pre.nodes h1]
    have r := (run_node (recOk h0 n) i h2).bind (f := Mem.newNode) (Q' := fun h' c => IsSchemaTo h' (n + 1) c s ∧ h0.nodes.length ≤ c) fun x' h' i' _ q => by
      obtain ⟨c, h'', e1, e2, e3, e4, e5⟩ := run_newNode i' q.2
      exact ⟨c, h'', e1, e2, e3, ⟨x', e4, nodeImp q.1 (fun q _ => e3.keeps q) fun _ _ _ r => isSchemaTo_pre e3 r⟩, e5⟩
    unfold Run at r ⊢
    rw [e]
    exact r

/-- From a new schema one comes only to new objects and to what may be shared. -/
theorem consists_new {h0 h : Mem} (i : Inv h0 h) {c : Nat} (hc : h0.nodes.length ≤ c) {q : Cell} (hq : Consists h c q) : New h0 q := by
  induction hq with
  | self => intro (e : c < h0.nodes.length); omega
  | @field y x q hy hx hp ih =>
    refine i.node y x q ?_ hx hp
    rcases Nat.lt_or_ge y h0.nodes.length with e | e
    · exact (ih e).elim
    · exact e
  | @member j l b hi hl hb ih =>
    intro (e : b < h0.nodes.length)
    rcases Nat.lt_or_ge j h0.ptrs.length with e' | e'
    · have : h0.ptrs[j]? = some [] := ih e'
      cases (prefix_get i.pre.ptrs this).symm.trans hl
      cases hb
    · have := i.ptrs j l b e' hl hb
      omega
  | @entry j l k b hi hl hb ih =>
    intro (e : b < h0.nodes.length)
    rcases Nat.lt_or_ge j h0.maps.length with e' | e'
    · have : h0.maps[j]? = some [] := ih e'
      cases (prefix_get i.pre.maps this).symm.trans hl
      cases hb
    · have := i.maps j l k b e' hl hb
      omega

/-! ## A place in memory is one schema -/

theorem derefUniq {α : Type} {st : List α} {p : Option Nat} {v w : Option α} (hv : Deref st p v) (hw : Deref st p w) : v = w := by
  cases p with
  | none => exact hv.trans hw.symm
  | some i =>
    obtain ⟨x, h1, rfl⟩ := hv
    obtain ⟨y, h2, rfl⟩ := hw
    exact h1.symm.trans h2

theorem containsUniq {α : Type} {st : List (List α)} {p : Option Nat} {v w : List α} (hv : Contains st p v) (hw : Contains st p w) : v = w := by
  cases p with
  | none => exact hv.trans hw.symm
  | some i => exact Option.some.inj (hv.symm.trans hw)

theorem refUniq {R : Nat → JS → Prop} (hR : ∀ a s t, R a s → R a t → s = t) {p : Option Nat} {s t : Option JS} (hs : IsRef R p s) (ht : IsRef R p t) : s = t := by
  cases p <;> cases s <;> cases t <;> simp only [IsRef] at hs ht ⊢
  exact congrArg _ (hR _ _ _ hs ht)

theorem forall₂_uniq {α β : Type} {R : α → β → Prop} (hR : ∀ a s t, R a s → R a t → s = t) {l : List α} {m : List β} (h : List.Forall₂ R l m) :
    ∀ {m' : List β}, List.Forall₂ R l m' → m = m' := by
  induction h with
  | nil => intro m' h'; cases h'; rfl
  | cons r _ ih =>
    intro m' h'
    cases h' with
    | cons r' h' => rw [hR _ _ _ r r', ih h']

theorem listUniq {h : Mem} {R : Nat → JS → Prop} (hR : ∀ a s t, R a s → R a t → s = t) {p : Option Nat} {s t : List (Option JS)} (hs : IsList h R p s) (ht : IsList h R p t) :
    s = t := by
  obtain ⟨ps, h1, h2⟩ := hs
  obtain ⟨qs, h3, h4⟩ := ht
  cases containsUniq h1 h3
  exact forall₂_uniq (R := IsRef R) (fun _ _ _ => refUniq hR) h2 h4

theorem entriesUniq {R : Nat → JS → Prop} (hR : ∀ a s t, R a s → R a t → s = t) {ps : List (String × Option Nat)} {s t : List (String × Option JS)} (hs : IsEntries R ps s)
    (ht : IsEntries R ps t) : s = t :=
  forall₂_uniq (fun _ _ _ hb hc => Prod.ext (hb.1.symm.trans hc.1) (refUniq hR hb.2 hc.2)) hs ht

theorem mapUniq {h : Mem} {R : Nat → JS → Prop} (hR : ∀ a s t, R a s → R a t → s = t) {p : Option Nat} {s t : Option (List (String × Option JS))} (hs : IsMap h R p s)
    (ht : IsMap h R p t) : s = t := by
  cases p <;> cases s <;> cases t <;> simp only [IsMap] at hs ht ⊢
  obtain ⟨ps, h1, h2⟩ := hs
  obtain ⟨qs, h3, h4⟩ := ht
  cases h1.symm.trans h3
  exact congrArg _ (entriesUniq hR h2 h4)

theorem coreUniq {h : Mem} {x : SNode} {c d : JSCore} (hc : IsCore h x c) (hd : IsCore h x d) : c = d := by
  have e := hc.flat.symm.trans hd.flat
  have e0 := derefUniq hc.maxLength hd.maxLength
  have e1 := derefUniq hc.minLength hd.minLength
  have e2 := derefUniq hc.maxItems hd.maxItems
  have e3 := derefUniq hc.minItems hd.minItems
  have e4 := derefUniq hc.maxContains hd.maxContains
  have e5 := derefUniq hc.minContains hd.minContains
  have e6 := derefUniq hc.maxProperties hd.maxProperties
  have e7 := derefUniq hc.minProperties hd.minProperties
  have e8 := derefUniq hc.uniqueItems hd.uniqueItems
  have e9 := derefUniq hc.additionalProperties hd.additionalProperties
  have e10 := containsUniq hc.required hd.required
  have e11 := containsUniq hc.enum hd.enum
  have e12 := containsUniq hc.examples hd.examples
  cases c
  cases d
  simp only [flatPart, JSCore.mk.injEq] at e
  simp only [JSCore.mk.injEq]
  simp_all

theorem isSchemaTo_uniq {h : Mem} : ∀ {n a s t}, IsSchemaTo h n a s → IsSchemaTo h n a t → s = t
  | 0, _, _, _, hs, _ => hs.elim
  | n + 1, a, s, t, ⟨x, h1, hs⟩, ⟨y, h2, ht⟩ => by
    cases h1.symm.trans h2
    have hR : ∀ a s t, IsSchemaTo h n a s → IsSchemaTo h n a t → s = t := fun _ _ _ => isSchemaTo_uniq
    have e0 := coreUniq hs.core ht.core
    have e1 := listUniq hR hs.allOf ht.allOf
    have e2 := listUniq hR hs.anyOf ht.anyOf
    have e3 := listUniq hR hs.oneOf ht.oneOf
    have e4 := refUniq hR hs.not_ ht.not_
    have e5 := refUniq hR hs.if_ ht.if_
    have e6 := refUniq hR hs.then_ ht.then_
    have e7 := refUniq hR hs.else_ ht.else_
    have e8 := refUniq hR hs.items ht.items
    have e9 := refUniq hR hs.propertyNames ht.propertyNames
    have e10 := mapUniq hR hs.properties ht.properties
    have e11 := mapUniq hR hs.patternProperties ht.patternProperties
    have e12 := mapUniq hR hs.facetDefinitions ht.facetDefinitions
    have e13 := derefUniq hs.annotations ht.annotations
    have e14 := derefUniq hs.facetData ht.facetData
    obtain ⟨ps, d1, d2⟩ := hs.definitions
    obtain ⟨qs, d3, d4⟩ := ht.definitions
    cases containsUniq d1 d3
    have e15 := entriesUniq hR d2 d4
    cases s
    cases t
    simp only [JS.mk.injEq]
    exact ⟨e0, e15, e1, e2, e3, e4, e5, e6, e7, e8, e9, e10, e11, e13, e12, e14⟩

theorem isSchema_uniq {h : Mem} {a : Nat} {s t : JS} (hs : IsSchema h a s) (ht : IsSchema h a t) : s = t := by
  obtain ⟨n, hs⟩ := hs
  obtain ⟨m, ht⟩ := ht
  exact isSchemaTo_uniq (isSchemaTo_le (Nat.le_max_left n m) hs) (isSchemaTo_le (Nat.le_max_right n m) ht)

/-! ## More fuel does not matter -/

/-- Where the first succeeds, the second does the same. -/
def Le {α : Type} (m m' : M Mem α) : Prop := ∀ h x h', m h = (.ok x, h') → m' h = (.ok x, h')

theorem Le.rfl {α : Type} (m : M Mem α) : Le m m := fun _ _ _ e => e

theorem Le.bind {α β : Type} {m m' : M Mem α} {f f' : α → M Mem β} (hm : Le m m') (hf : ∀ x, Le (f x) (f' x)) : Le (M.bind m f) (M.bind m' f') := by
  intro h y h'' e
  cases hd : m h with
  | mk o h' =>
    cases o with
    | ok x =>
      simp only [M.bind, hd] at e
      simp only [M.bind, hm h x h' hd]
      exact hf x h' y h'' e
    | err _ => simp [M.bind, hd] at e
    | panic _ => simp [M.bind, hd] at e
    | diverge => simp [M.bind, hd] at e

theorem Le.collect {α β : Type} {f f' : α → M Mem β} (hf : ∀ x, Le (f x) (f' x)) : ∀ l, Le (M.collect f l) (M.collect f' l)
  | [] => Le.rfl _
  | x :: l => (hf x).bind fun _ => (Le.collect hf l).bind fun _ => Le.rfl _

variable {r r' : Nat → M Mem Nat} (hr : ∀ a, Le (r a) (r' a))
include hr

theorem le_ref : ∀ p, Le (memCopyRef r p) (memCopyRef r' p)
  | none => Le.rfl _
  | some a => (hr a).bind fun _ => Le.rfl _

theorem le_entry (e : String × Option Nat) : Le (memCopyEntry r e) (memCopyEntry r' e) := (le_ref hr e.2).bind fun _ => Le.rfl _

theorem le_ptrs (p : Option Nat) : Le (memCopyPtrs r p) (memCopyPtrs r' p) := by
  intro h
  cases hl : held h.ptrs p with
  | nil => simp only [memCopyPtrs, hl]; exact fun _ _ e => e
  | cons x l => simp only [memCopyPtrs, hl]; exact ((Le.collect (le_ref hr) (x :: l)).bind fun _ => Le.rfl _) h

theorem le_map (p : Option Nat) : Le (memCopyMap r p) (memCopyMap r' p) := by
  intro h
  cases hl : held h.maps p with
  | nil => simp only [memCopyMap, hl]; exact fun _ _ e => e
  | cons x l => simp only [memCopyMap, hl]; exact ((Le.collect (le_entry hr) (x :: l)).bind fun _ => Le.rfl _) h

theorem le_defs : ∀ p, Le (memCopyDefs r p) (memCopyDefs r' p)
  | none => Le.rfl _
  | some i => fun h => ((Le.collect (le_entry hr) (held h.maps (some i))).bind fun _ => Le.rfl _) h

theorem le_node (x : SNode) : Le (memCopyNode r x) (memCopyNode r' x) := by
  unfold memCopyNode
  refine Le.bind (Le.rfl _) fun _ => ?_
  refine Le.bind (Le.rfl _) fun _ => ?_
  refine Le.bind (Le.rfl _) fun _ => ?_
  refine Le.bind (le_ptrs hr _) fun _ => ?_
  refine Le.bind (le_ptrs hr _) fun _ => ?_
  refine Le.bind (le_ptrs hr _) fun _ => ?_
  refine Le.bind (le_ref hr _) fun _ => ?_
  refine Le.bind (le_ref hr _) fun _ => ?_
  refine Le.bind (le_ref hr _) fun _ => ?_
  refine Le.bind (le_ref hr _) fun _ => ?_
  refine Le.bind (le_ref hr _) fun _ => ?_
  refine Le.bind (le_ref hr _) fun _ => ?_
  refine Le.bind (le_map hr _) fun _ => ?_
  refine Le.bind (le_map hr _) fun _ => ?_
  refine Le.bind (le_map hr _) fun _ => ?_
  refine Le.bind (Le.rfl _) fun _ => ?_
  refine Le.bind (le_defs hr _) fun _ => ?_
  refine Le.bind (Le.rfl _) fun _ => ?_
  exact Le.rfl _

omit hr

theorem le_memCopy : ∀ n a, Le (memCopy n a) (memCopy (n + 1) a)
  | 0, _ => fun h x h' e => by simp [memCopy, M.diverge] at e
  | n + 1, a => fun h => by
    cases hx : h.nodes[a]? with
    | none => simp [memCopy, hx]
    | some x =>
      rw [memCopy, memCopy]
      simp only [hx]
      exact ((le_node (le_memCopy n) x).bind fun _ => Le.rfl _) h

theorem memCopy_le {n m a c : Nat} {h h' : Mem} (hnm : n ≤ m) (e : memCopy n a h = (.ok c, h')) : memCopy m a h = (.ok c, h') := by
  induction hnm with
  | refl => exact e
  | step _ ih => exact le_memCopy _ _ _ _ _ ih

end GoRaml.SMem
