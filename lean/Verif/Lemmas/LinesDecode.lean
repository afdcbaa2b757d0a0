import Verif.Lemmas.HaltFrag
import Verif.Lemmas.ReadMake

/-!
# Acyclic lineage: decoding

Decoding makes bases that have no alias, and that have parents or a link only while they are references still to be resolved.
-/

namespace GoRaml.Lines

open GoRaml GoRaml.Spec
open GoRaml.Load (Unk)

/-- The base has a shape other than that of an unresolved reference. -/
def Set (b : Base) : Prop := ∃ sh, b.shape = some sh ∧ ∀ f, sh ≠ .unknown f

/-- What decides the lineage. -/
def SameLine (b b' : Base) : Prop := b'.link = b.link ∧ b'.inherits = b.inherits ∧ b'.alias = b.alias

/-- No alias; neither parents nor a link once it has a shape; not both as a reference, and parents only under the type name "composite". -/
def Neat (b : Base) : Prop :=
  b.alias = none ∧ (Set b → b.link = none ∧ b.inherits = none) ∧ (Unk b → (b.link ≠ none → b.inherits = none) ∧ (b.inherits ≠ none → b.type = "composite"))

theorem SameLine.rfl {b : Base} : SameLine b b := ⟨_root_.rfl, _root_.rfl, _root_.rfl⟩

theorem SameLine.trans {b b' b'' : Base} (h : SameLine b b') (h' : SameLine b' b'') : SameLine b b'' :=
  ⟨h'.1.trans h.1, h'.2.1.trans h.2.1, h'.2.2.trans h.2.2⟩

/-- The same shape and type name. -/
def SameType (b b' : Base) : Prop := b'.shape = b.shape ∧ b'.type = b.type

theorem SameType.trans {b b' b'' : Base} (h : SameType b b') (h' : SameType b' b'') : SameType b b'' := ⟨h'.1.trans h.1, h'.2.trans h.2⟩

theorem SameType.set {b b' : Base} (h : SameType b b') : Set b' ↔ Set b := by unfold Set; rw [h.1]

theorem SameType.unk {b b' : Base} (h : SameType b b') : Unk b' ↔ Unk b := by unfold Unk; rw [h.1]

theorem Neat.same {b b' : Base} (h : Neat b) (e : SameLine b b') (hs : SameType b b') : Neat b' := by
  refine ⟨e.2.2.trans h.1, fun hb => ?_, fun hb => ?_⟩
  · have := h.2.1 (hs.set.1 hb); rw [e.1, e.2.1]; exact this
  · have := h.2.2 (hs.unk.1 hb); rw [e.1, e.2.1, hs.2]; exact this

/-- What decoding may do; the base in `ex`, if any, may get a shape. -/
structure G (ex : Option Addr) (s s' : St) : Prop where
  old : ∀ x b, s.base x = some b → ∃ b', s'.base x = some b' ∧ SameLine b b' ∧ (ex ≠ some x → SameType b b')
  new : ∀ x b', s'.base x = some b' → s.base x = none → Neat b'

section
variable {ex : Option Addr} {s s' s'' : St} {a : Addr} {α β : Type}

/-- The base in `ex` is there. -/
def There (ex : Option Addr) (s : St) : Prop := ∀ x, ex = some x → (s.base x).isSome

theorem G.there (h : G ex s s') (ht : There ex s) : There ex s' := fun x hx => by
  obtain ⟨b, hb⟩ := Option.isSome_iff_exists.1 (ht x hx)
  obtain ⟨b', hb', _⟩ := h.old x b hb
  rw [hb']; rfl

theorem G.same (h : s'.bases = s.bases) : G ex s s' where
  old := fun x b hb => ⟨b, by simpa only [St.base, h] using hb, .rfl, fun _ => ⟨rfl, rfl⟩⟩
  new := fun x b' hb hn => by rw [show s'.base x = s.base x by simp only [St.base, h], hn] at hb; cases hb

theorem G.trans (h : G ex s s') (h' : G ex s' s'') (ht : There ex s) : G ex s s'' where
  old := fun x b hb => by
    obtain ⟨b1, h1, e1, m1⟩ := h.old x b hb
    obtain ⟨b2, h2, e2, m2⟩ := h'.old x b1 h1
    exact ⟨b2, h2, e1.trans e2, fun hx => (m1 hx).trans (m2 hx)⟩
  new := fun x b2 hb hn => by
    cases h1 : s'.base x with
    | none => exact h'.new x b2 hb h1
    | some b1 =>
      obtain ⟨b2', h2, e2, m2⟩ := h'.old x b1 h1
      rw [hb] at h2; cases h2
      refine (h.new x b1 h1 hn).same e2 (m2 fun hx => ?_)
      have := ht x hx
      rw [hn] at this; cases this

theorem G.widen (h : G none s s') : G ex s s' where
  old := fun x b hb => by
    obtain ⟨b1, h1, e1, m1⟩ := h.old x b hb
    exact ⟨b1, h1, e1, fun _ => m1 (by simp)⟩
  new := h.new

/-- The computation does no more than that. -/
def Does (ex : Option Addr) (m : M St α) : Prop := ∀ s, There ex s → G ex s (m s).2

variable {m : M St α} {f : α → M St β}

theorem Does.bind (h : Does ex m) (hf : ∀ x, Does ex (f x)) : Does ex (M.bind m f) := fun s ht => by
  have h1 := h s ht
  unfold M.bind
  cases hm : m s with
  | mk o t =>
    rw [hm] at h1
    cases o with
    | ok x => exact h1.trans (hf x t (h1.there ht)) ht
    | err e => exact h1
    | panic e => exact h1
    | diverge => exact h1

theorem Does.still (h : ∀ s, (m s).2.bases = s.bases) : Does ex m := fun s _ => G.same (h s)

theorem Does.quiet (h : Halt.Quiet m) : Does ex m := .still fun s => (h s).2.1

theorem Does.widen (h : Does none m) : Does ex m := fun s _ => (h s (fun _ h => by cases h)).widen

theorem Does.ret {x : α} : Does ex (M.ret x) := .still fun _ => rfl
theorem Does.err {e : String} : Does ex (M.err e : M St α) := .still fun _ => rfl
theorem Does.panic {e : String} : Does ex (M.panic e : M St α) := .still fun _ => rfl
theorem Does.diverge : Does ex (M.diverge : M St α) := .still fun _ => rfl
theorem Does.lift {o : Out α} : Does ex (M.lift o) := .still fun _ => rfl
theorem Does.get : Does ex (Heap.getBase a) := .quiet .getBase

theorem Does.attempt (h : Does ex m) : Does ex (M.attempt m) := fun s ht => by
  have := h s ht
  unfold M.attempt
  cases hm : m s with
  | mk o t =>
    rw [hm] at this
    cases o <;> exact this

theorem Does.per {m : St → M St α} (h : ∀ t, Does ex (m t)) : Does ex (fun s => m s s) := fun s ht => h s s ht

theorem g_upd {g : Base → Base} (hg : ∀ b, SameLine b (g b) ∧ (ex ≠ some a → SameType b (g b))) : G ex s { s with bases := s.bases.modify a g } where
  old := fun x b hb => by
    rw [Halt.base_upd, hb]
    by_cases e : a = x
    · subst e; exact ⟨g b, by simp, (hg b).1, (hg b).2⟩
    · exact ⟨b, by simp [e], .rfl, fun _ => ⟨rfl, rfl⟩⟩
  new := fun x b' hb hn => by
    rw [Halt.base_upd, hn] at hb
    split at hb <;> simp_all

theorem Does.upd {g : Base → Base} (hg : ∀ b, SameLine b (g b) ∧ SameType b (g b)) : Does ex (Heap.updBase a g) := fun s _ =>
  g_upd fun b => ⟨(hg b).1, fun _ => (hg b).2⟩

theorem Does.shape {sh : Shape} : Does (some a) (setShape a sh) := fun s _ =>
  g_upd fun b => ⟨.rfl, fun h => absurd rfl h⟩

variable {E : Env} {c : Calls} {loc : String}

/-- What the recursive calls do. -/
structure CallsDo (c : Calls) : Prop where
  shape : ∀ v n l, Does none (c.makeShape v n l)
  dataType : ∀ p, Does none (c.parseDataType p)
  library : ∀ p, Does none (c.parseLibrary p)

/-! ## Facets -/

theorem arrayFacet_does (hc : CallsDo c) {f : ArrayF} {key : String} {v : YNode} {m : M St ArrayF} (hm : arrayFacet E c loc f key v = some m) : Does none m := by
  unfold arrayFacet at hm
  split at hm
  · cases hm; exact .lift
  split at hm
  · cases hm; exact .lift
  split at hm
  · cases hm; exact .bind (hc.shape _ _ _) fun _ => .ret
  split at hm
  · cases hm; exact .lift
  · cases hm

theorem makeDeclared_does (hc : CallsDo c) {n : String} {v : YNode} : Does none (makeDeclared E c loc n v) :=
  .bind (hc.shape _ _ _) fun _ => .bind .get fun _ => .lift

theorem unmarshalProperty_does (hc : CallsDo c) {n : String} {v : YNode} {f : ObjectF} : Does none (unmarshalProperty E c loc n v f) := by
  unfold unmarshalProperty
  split
  · refine .bind ?_ fun i => .bind (makeDeclared_does hc) fun d => ?_
    · unfold ensurePatProps
      split
      · exact .ret
      · exact .quiet Halt.quiet_newPatProps
    · cases d with
      | property p => exact .ret
      | pattern k p => exact .bind (.quiet Halt.quiet_setPatProp) fun _ => .ret
  · refine .bind ?_ fun i => .bind (makeDeclared_does hc) fun d => ?_
    · unfold ensureProps
      split
      · exact .ret
      · exact .quiet Halt.quiet_newProps
    · cases d with
      | pattern k p => exact .ret
      | property p => exact .bind (.quiet Halt.quiet_setProp) fun _ => .ret

theorem unmarshalProperties_does (hc : CallsDo c) : ∀ (l : List YNode) {f : ObjectF}, Does none (unmarshalProperties E c loc l f)
  | [], f => .ret
  | [_], f => .ret
  | k :: v :: rest, f => by
    unfold unmarshalProperties
    exact .bind (unmarshalProperty_does hc) fun _ => unmarshalProperties_does hc rest

theorem objectFacet_does (hc : CallsDo c) {f : ObjectF} {key : String} {v : YNode} {m : M St ObjectF} (hm : objectFacet E c loc f key v = some m) : Does none m := by
  unfold objectFacet at hm
  split at hm
  · cases hm; exact .lift
  split at hm
  · cases hm; exact .lift
  split at hm
  · cases hm; exact .lift
  split at hm
  · cases hm; exact .lift
  split at hm
  · cases hm; exact .lift
  split at hm
  · cases hm
    split
    · exact .err
    · exact unmarshalProperties_does hc _
  · cases hm

theorem shapeFacet_does (hc : CallsDo c) {sh : Shape} {key : String} {v : YNode} {m : M St Shape} (hm : shapeFacet E c loc sh key v = some m) : Does none m := by
  cases sh with
  | integer f => obtain ⟨o, _, rfl⟩ := Option.map_eq_some_iff.1 hm; exact .lift
  | number f => obtain ⟨o, _, rfl⟩ := Option.map_eq_some_iff.1 hm; exact .lift
  | string f => obtain ⟨o, _, rfl⟩ := Option.map_eq_some_iff.1 hm; exact .lift
  | file f => obtain ⟨o, _, rfl⟩ := Option.map_eq_some_iff.1 hm; exact .lift
  | boolean e =>
    unfold shapeFacet at hm
    simp only at hm
    split at hm
    · cases hm; exact .lift
    · cases hm
  | datetime e =>
    unfold shapeFacet at hm
    simp only at hm
    split at hm
    · cases hm; exact .lift
    · cases hm
  | array f => obtain ⟨o, ho, rfl⟩ := Option.map_eq_some_iff.1 hm; exact .bind (arrayFacet_does hc ho) fun _ => .ret
  | object f => obtain ⟨o, ho, rfl⟩ := Option.map_eq_some_iff.1 hm; exact .bind (objectFacet_does hc ho) fun _ => .ret
  | _ => cases hm

theorem unmarshalFacets_does (hc : CallsDo c) : ∀ (l : List YNode) {sh : Shape}, Does (some a) (unmarshalFacets E c a loc l sh)
  | [], sh => .ret
  | [_], sh => .ret
  | key :: v :: rest, sh => by
    unfold unmarshalFacets
    refine .bind ?_ fun sh' => unmarshalFacets_does hc rest
    unfold unmarshalFacet
    cases hs : shapeFacet E c loc sh key.value v with
    | some m => exact .bind (shapeFacet_does hc hs).widen fun _ => .bind .shape fun _ => .ret
    | none => exact .bind (.quiet Halt.quiet_customFacet) fun _ => .ret

theorem makeConcrete_does (hc : CallsDo c) {t : String} {facets : Option (List YNode)} : Does (some a) (makeConcrete E c a t facets) := by
  refine .bind .get fun b => .bind (fun s _ => g_upd fun b => ⟨.rfl, fun h => absurd rfl h⟩) fun _ => ?_
  unfold unmarshalYAMLNodes
  split
  · exact .ret
  · exact .ret
  · exact .ret
  · exact .shape
  · simp only
    split
    · exact .err
    · exact unmarshalFacets_does hc _

/-! ## Types -/

theorem putFragment_does {p : String} {f : FragRef} : Does ex (putFragment p f) := .still fun s => by
  unfold putFragment
  cases OMap.get s.fragments p <;> rfl

theorem decodeFragment_does {text : String} {f : YNode → M St α} (hf : ∀ y, Does ex (f y)) : Does ex (decodeFragment E text f) := by
  unfold decodeFragment
  split
  · exact .err
  split
  · exact .panic
  split
  · exact .err
  · exact hf _

theorem decodeNamedExample_does {text path : String} : Does ex (decodeNamedExample E text path) :=
  .bind (decodeFragment_does fun _ => .quiet (Halt.quiet_namedExamples _)) fun _ => .bind (.quiet Halt.quiet_newNE) fun _ => .bind putFragment_does fun _ => .ret

theorem parseNamedExample_does {path : String} : Does ex (parseNamedExample E path) := fun s ht => by
  unfold parseNamedExample
  cases getFragment s path with
  | some f => cases f <;> exact G.same rfl
  | none =>
    cases E.file path with
    | none => exact G.same rfl
    | some text => exact Does.bind .lift (fun _ => decodeNamedExample_does) s ht

theorem decodeExamples_does {v : YNode} : Does ex (decodeExamples E a loc v) := by
  unfold decodeExamples
  refine .bind .get fun b => ?_
  split
  · exact .err
  split
  · exact .bind parseNamedExample_does fun i => .per (m := fun h => Heap.updBase a (fun b => { b with examples := some { link := h.nes[i]? } })) fun t => .upd fun _ => ⟨.rfl, rfl, rfl⟩
  split
  · exact .err
  · exact .bind (.quiet (Halt.quiet_namedExamples _)) fun _ => .upd fun _ => ⟨.rfl, rfl, rfl⟩

theorem decodeFacetDefs_does (hc : CallsDo c) {i : Nat} : ∀ (l : List YNode), Does none (decodeFacetDefs E c loc i l)
  | [] => .ret
  | [_] => .panic
  | key :: v :: rest => by
    unfold decodeFacetDefs
    exact .bind (hc.shape _ _ _) fun _ => .bind .get fun _ => .bind (.quiet Halt.quiet_setProp) fun _ => decodeFacetDefs_does hc rest

theorem Does.ite {p : Prop} [Decidable p] {m m' : M St α} (h : Does ex m) (h' : Does ex m') : Does ex (if p then m else m') := by
  by_cases hp : p
  · rw [if_pos hp]; exact h
  · rw [if_neg hp]; exact h'

theorem decodeValueNode_does (hc : CallsDo c) {k v : YNode} : Does ex (decodeValueNode E c a loc k v) := by
  unfold decodeValueNode
  extract_lets none_
  refine .ite .ret (.ite (.bind .lift fun _ => .bind (.upd fun _ => ⟨.rfl, rfl, rfl⟩) fun _ => .ret) (.ite (.bind .lift fun _ => .bind (.upd fun _ => ⟨.rfl, rfl, rfl⟩) fun _ => .ret)
    (.ite (.bind .lift fun _ => .bind (.upd fun _ => ⟨.rfl, rfl, rfl⟩) fun _ => .ret) (.ite ?_ (.ite ?_ (.ite ?_ (.ite (.bind .lift fun _ => .bind (.upd fun _ => ⟨.rfl, rfl, rfl⟩) fun _ => .ret)
    (.ite .ret (.ite (.bind (.quiet Halt.quiet_unmarshalExt) fun _ => .bind (.upd fun _ => ⟨.rfl, rfl, rfl⟩) fun _ => .ret) .ret)))))))))
  · exact .bind (.quiet Halt.quiet_newProps) fun _ => .bind (.upd fun _ => ⟨.rfl, rfl, rfl⟩) fun _ => .bind (decodeFacetDefs_does hc _).widen fun _ => .ret
  · refine .bind .get fun b => ?_
    cases b.examples with
    | some _ => exact .err
    | none => exact .bind (.quiet Halt.quiet_makeExample) fun _ => .bind (.upd fun _ => ⟨.rfl, rfl, rfl⟩) fun _ => .ret
  · exact .bind decodeExamples_does fun _ => .ret

theorem decodeEntries_does (hc : CallsDo c) : ∀ (l : List YNode) {t : Option YNode} {fs : List YNode}, Does ex (decodeEntries E c a loc l t fs)
  | [], t, fs => .ret
  | [_], t, fs => .panic
  | k :: v :: rest, t, fs => by
    unfold decodeEntries
    exact .bind (decodeValueNode_does hc) fun _ => decodeEntries_does hc rest

theorem decode_does (hc : CallsDo c) {v : YNode} : Does ex (decode E c a loc v) := by
  unfold decode
  split
  · exact .ret
  split
  · exact .err
  · exact .bind (decodeEntries_does hc _) fun _ => .ret

theorem makeInherits_does (hc : CallsDo c) {n : String} : ∀ (l : List YNode), Does none (makeInherits c n loc l)
  | [] => .ret
  | x :: rest => by
    unfold makeInherits
    split
    · exact .err
    split
    · exact .err
    · exact .bind (hc.shape _ _ _) fun _ => .bind (makeInherits_does hc rest) fun _ => .ret

/-! ## The base under construction -/

/-- As `G`, but for a base `a` that is new: nothing is said about it. -/
structure Aside (a : Addr) (s s' : St) : Prop where
  old : ∀ x b, x ≠ a → s.base x = some b → ∃ b', s'.base x = some b' ∧ SameLine b b' ∧ SameType b b'
  new : ∀ x b', x ≠ a → s'.base x = some b' → s.base x = none → Neat b'

theorem Aside.trans (h : Aside a s s') (h' : Aside a s' s'') : Aside a s s'' where
  old := fun x b hx hb => by
    obtain ⟨b1, h1, e1, m1⟩ := h.old x b hx hb
    obtain ⟨b2, h2, e2, m2⟩ := h'.old x b1 hx h1
    exact ⟨b2, h2, e1.trans e2, m1.trans m2⟩
  new := fun x b2 hx hb hn => by
    cases h1 : s'.base x with
    | none => exact h'.new x b2 hx hb h1
    | some b1 =>
      obtain ⟨b2', h2, e2, m2⟩ := h'.old x b1 hx h1
      rw [hb] at h2; cases h2
      exact (h.new x b1 hx h1 hn).same e2 m2

theorem G.aside (h : G (some a) s s') : Aside a s s' where
  old := fun x b hx hb => by
    obtain ⟨b1, h1, e1, m1⟩ := h.old x b hb
    exact ⟨b1, h1, e1, m1 fun e => hx (Option.some.inj e).symm⟩
  new := fun x b' _ hb hn => h.new x b' hb hn

theorem aside_upd {g : Base → Base} : Aside a s { s with bases := s.bases.modify a g } where
  old := fun x b hx hb => ⟨b, by rw [Halt.base_upd, if_neg (fun e => hx e.symm)]; exact hb, .rfl, rfl, rfl⟩
  new := fun x b hx hb hn => by rw [Halt.base_upd, if_neg (fun e => hx e.symm), hn] at hb; cases hb

theorem Aside.done (h : Aside a s s') (hn : s.base a = none) (ha : ∀ b, s'.base a = some b → Neat b) : G none s s' where
  old := fun x b hb => by
    obtain ⟨b1, h1, e1, m1⟩ := h.old x b (fun e => by rw [e, hn] at hb; cases hb) hb
    exact ⟨b1, h1, e1, fun _ => m1⟩
  new := fun x b hb hx => by
    by_cases e : x = a
    · subst e; exact ha b hb
    · exact h.new x b e hb hx

/-- The computation takes care of `a`, which nothing else refers to yet; `P` is known of it. -/
def Builds (a : Addr) (P : Base → Prop) (m : M St α) (Q : α → Base → Prop) : Prop :=
  ∀ s b, s.base a = some b → P b → Aside a s (m s).2 ∧ ∃ b', (m s).2.base a = some b' ∧ Neat b' ∧ ∀ x, (m s).1 = .ok x → Q x b'

variable {P P' : Base → Prop} {Q Q' : α → Base → Prop} {R : β → Base → Prop}

theorem Builds.bind (h : Builds a P m Q) (hf : ∀ x, Builds a (fun b => Neat b ∧ Q x b) (f x) R) : Builds a P (M.bind m f) R := fun s b hb hp => by
  obtain ⟨h1, b1, h2, h3, h4⟩ := h s b hb hp
  unfold M.bind
  cases hm : m s with
  | mk o t =>
    rw [hm] at h1 h2 h4
    cases o with
    | ok x =>
      obtain ⟨k1, k2⟩ := hf x t b1 h2 ⟨h3, h4 x rfl⟩
      exact ⟨h1.trans k1, k2⟩
    | err e => exact ⟨h1, b1, h2, h3, fun _ h => by cases h⟩
    | panic e => exact ⟨h1, b1, h2, h3, fun _ h => by cases h⟩
    | diverge => exact ⟨h1, b1, h2, h3, fun _ h => by cases h⟩

theorem Builds.weaken (h : Builds a P m Q) (hp : ∀ b, P' b → P b) : Builds a P' m Q := fun s b hb k => h s b hb (hp b k)

/-- Neither parents nor a link nor an alias. -/
def Lone (b : Base) : Prop := b.link = none ∧ b.inherits = none ∧ b.alias = none

theorem Lone.neat {b : Base} (h : Lone b) : Neat b := ⟨h.2.2, fun _ => ⟨h.1, h.2.1⟩, fun _ => ⟨fun _ => h.2.1, fun k => absurd h.2.1 k⟩⟩

theorem neat_open {b : Base} (h : b.alias = none) (hs : b.shape = none) : Neat b :=
  ⟨h, fun ⟨_, e, _⟩ => (by rw [hs] at e; cases e), fun ⟨_, e⟩ => by rw [hs] at e; cases e⟩

theorem Lone.same {b b' : Base} (h : Lone b) (e : SameLine b b') : Lone b' := ⟨e.1.trans h.1, e.2.1.trans h.2.1, e.2.2.trans h.2.2⟩

theorem Does.builds (h : Does (some a) m) : Builds a Lone m fun _ => Lone := fun s b hb hp => by
  have g := h s fun x hx => by cases hx; rw [hb]; rfl
  obtain ⟨b', h1, h2, _⟩ := g.old a b hb
  exact ⟨g.aside, b', h1, (hp.same h2).neat, fun _ _ => hp.same h2⟩

theorem Builds.ret {x : α} (h : ∀ b, P b → Neat b ∧ Q x b) : Builds a P (M.ret x) Q := fun s b hb hp =>
  ⟨(G.same (ex := some a) rfl).aside, b, hb, (h b hp).1, fun y hy => by cases hy; exact (h b hp).2⟩

theorem Builds.err {e : String} (h : ∀ b, P b → Neat b) : Builds a P (M.err e) Q := fun s b hb hp =>
  ⟨(G.same (ex := some a) rfl).aside, b, hb, h b hp, fun y hy => by cases hy⟩

theorem Builds.upd {g : Base → Base} {Q : Unit → Base → Prop} (h : ∀ b, P b → Neat (g b) ∧ Q () (g b)) : Builds a P (Heap.updBase a g) Q := fun s b hb hp =>
  ⟨aside_upd, g b, by show ({ s with bases := s.bases.modify a g } : St).base a = _; rw [Halt.base_upd, if_pos rfl, hb]; rfl, (h b hp).1, fun _ _ => (h b hp).2⟩

/-- A base without a shape stays one. -/
theorem Does.buildsOpen (h : Does none m) : Builds a (fun b => Lone b ∧ b.shape = none) m fun _ b => Lone b ∧ b.shape = none := fun s b hb hp => by
  have g := h s fun x hx => by cases hx
  obtain ⟨b', h1, h2, h3⟩ := g.old a b hb
  have hn : b'.shape = none := (h3 (by simp)).1.trans hp.2
  exact ⟨(g.widen (ex := some a)).aside, b', h1, (hp.1.same h2).neat, fun _ _ => ⟨hp.1.same h2, hn⟩⟩

/-- What the type name says about the base. -/
def Named (t : String) (b : Base) : Prop :=
  Lone b ∨ b.alias = none ∧ Kind (emptyShape t) = "unknown" ∧ (b.link ≠ none → b.inherits = none) ∧ (b.inherits ≠ none → t = "composite")

theorem makeShapeType_builds (hc : CallsDo c) {t : YNode} {facets : Option (List YNode)} {n : String} :
    Builds a (fun b => Lone b ∧ b.shape = none) (makeShapeType E c t facets n loc a) fun r b => ∀ t, r = some t → Named t b := by
  have herr : ∀ e, Builds a (fun b => Lone b ∧ b.shape = none) (M.err e) fun (r : Option String) b => ∀ t, r = some t → Named t b := fun e => .err fun b h => h.1.neat
  unfold makeShapeType
  cases t.kind with
  | zero => exact herr _
  | document => exact herr _
  | mapping => exact herr _
  | «alias» => exact herr _
  | scalar =>
    simp only
    split
    · split
      · exact .bind (Does.lift.buildsOpen) fun s => .ret fun b h => ⟨h.1, fun _ _ => .inl h.2.1⟩
      split
      · refine .weaken (.bind (Does.builds fun _ _ => g_upd fun _ => ⟨.rfl, fun h => absurd rfl h⟩) fun _ => .weaken (.bind (Does.lift.builds) fun js => .weaken (.bind (Does.shape.builds) fun _ => .ret fun b h => ⟨h.1, ?_⟩) fun b h => h.2) fun b h => h.2) fun b h => h.1
        intro _ h; cases h
      · exact .ret fun b h => ⟨h.1.neat, fun _ _ => .inl h.1⟩
    split
    · refine .bind (hc.dataType _).buildsOpen fun d => .bind (.upd (Q := fun _ b => b.alias = none ∧ b.inherits = none) fun b h =>
        ⟨neat_open h.2.1.2.2 h.2.2, h.2.1.2.2, h.2.1.2.1⟩) fun _ => .ret fun b h => ⟨h.1, ?_⟩
      intro t ht; cases ht
      exact .inr ⟨h.2.1, by decide +kernel, fun _ => h.2.2, fun k => absurd h.2.2 k⟩
    split
    · exact .ret fun b h => ⟨h.1.neat, fun _ _ => .inl h.1⟩
    · exact herr _
  | sequence =>
    refine .bind (makeInherits_does hc _).buildsOpen fun l => .weaken (.bind (Does.quiet Halt.quiet_newSlice).buildsOpen fun i =>
      .bind (.upd (Q := fun _ b => b.alias = none ∧ b.link = none) fun b h => ⟨neat_open h.2.1.2.2 h.2.2, h.2.1.2.2, h.2.1.1⟩) fun _ => .ret fun b h => ⟨h.1, ?_⟩) fun b h => h.2
    intro t ht; cases ht
    exact .inr ⟨h.2.1, by decide +kernel, fun k => absurd h.2.2 k, fun _ => rfl⟩

theorem finishShape_builds (hc : CallsDo c) {t : String} {facets : Option (List YNode)} : Builds a (Named t) (finishShape E c a t facets) fun _ _ => True := by
  have hmk : Builds a (Named t) (makeConcrete E c a t facets) fun _ _ => True := by
    intro s b hb hp
    rcases hp with hp | ⟨hp, hk, hn⟩
    · obtain ⟨h1, b', h2, h3, _⟩ := (makeConcrete_does (E := E) hc (t := t) (facets := facets)).builds s b hb hp
      exact ⟨h1, b', h2, h3, fun _ _ => trivial⟩
    · have hf : emptyShape t = .unknown none := by
        rcases Load.emptyShape_cases t with h | h | h | h | h | h | h | h | h | h | h | h | h | h | h | h <;> first | exact h | (rw [h] at hk; simp [Kind] at hk)
      have e : makeConcrete E c a t facets s = (.ok (), { s with bases := s.bases.modify a fun b => { b with type := t, shape := some (.unknown facets) } }) := by
        simp only [makeConcrete, M.bind, Heap.getBase, hb, hf, unmarshalYAMLNodes, Heap.updBase, setShape, List.modify_modify_eq]
        rfl
      rw [e]
      refine ⟨aside_upd, { b with type := t, shape := some (.unknown facets) }, by rw [Halt.base_upd, if_pos rfl, hb]; rfl, ⟨hp, fun ⟨sh, e, h⟩ => ?_, fun _ => hn⟩, fun _ _ => trivial⟩
      cases e
      exact absurd rfl (h _)
  refine .bind hmk fun _ => ?_
  have hq : ∀ {α : Type} {m : M St α}, (∀ s, (m s).2.bases = s.bases) → Builds a (fun b => Neat b ∧ True) m fun _ _ => True := fun h s b hb hp =>
    ⟨(G.same (ex := some a) (h s)).aside, b, by simpa only [St.base, h s] using hb, hp.1, fun _ _ => trivial⟩
  split
  · exact .bind (hq fun _ => rfl) fun _ => .ret fun b h => ⟨h.1, trivial⟩
  · exact .ret fun b h => ⟨h.1, trivial⟩

theorem makeNewShapeYAML_does (hc : CallsDo c) {v : YNode} {n : String} : Does none (makeNewShapeYAML E c v n loc) := fun s _ => by
  have hrest : Builds s.bases.length (fun b => Lone b ∧ b.shape = none) (M.bind (decode E c s.bases.length loc v) fun r =>
      match r.1 with
      | none => M.bind (M.lift (identifyShapeType (r.2.getD []))) fun t => finishShape E c s.bases.length t r.2
      | some t =>
        M.bind (makeShapeType E c t r.2 n loc s.bases.length) fun st =>
        match st with
        | none => M.ret s.bases.length
        | some shapeType => finishShape E c s.bases.length shapeType r.2) fun _ _ => True := by
    refine .bind (decode_does hc).buildsOpen fun r => .weaken (P := fun b => Lone b ∧ b.shape = none) ?_ fun b h => h.2
    cases r.1 with
    | none => exact .bind Does.lift.buildsOpen fun t => .weaken (finishShape_builds hc) fun b h => .inl h.2.1
    | some t =>
      refine .bind (makeShapeType_builds hc) fun st => ?_
      cases st with
      | none => exact .ret fun b h => ⟨h.1, trivial⟩
      | some t => exact .weaken (finishShape_builds hc) fun b h => h.2 t rfl
  obtain ⟨b0, t, e, hbs, hl⟩ : ∃ b0 t, makeBaseShape n loc s = (.ok s.bases.length, t) ∧ t.bases = s.bases ++ [b0] ∧ Lone b0 ∧ b0.shape = none := ⟨_, _, rfl, rfl, ⟨rfl, rfl, rfl⟩, rfl⟩
  have hb0 : t.base s.bases.length = some b0 := by show t.bases[_]? = _; rw [hbs]; simp
  obtain ⟨h1, b', h2, h3, _⟩ := hrest t b0 hb0 hl
  have h0 : Aside s.bases.length s t := by
    refine ⟨fun x b hx hb => ⟨b, ?_, .rfl, rfl, rfl⟩, fun x b hx hb hn => ?_⟩
    · show t.bases[x]? = _
      rw [hbs, List.getElem?_append_left (List.getElem?_eq_some_iff.1 hb).1]; exact hb
    · have hb : t.bases[x]? = _ := hb
      rw [hbs] at hb
      have hn : s.bases[x]? = none := hn
      rcases Load.getElem?_snoc hb with ⟨h, _⟩ | ⟨h, _⟩
      · rw [hn] at h; cases h
      · exact absurd h hx
  unfold makeNewShapeYAML
  have he : ∀ (f : Addr → M St Addr), M.bind (makeBaseShape n loc) f s = f s.bases.length t := fun f => by simp [M.bind, e]
  rw [he]
  refine (h0.trans h1).done (List.getElem?_eq_none (Nat.le_refl _)) fun b hb => ?_
  rw [h2] at hb; cases hb; exact h3

/-! ## Fragments -/

theorem typeEntries_does (hc : CallsDo c) {put : String → String → Addr → M St Unit} (hput : ∀ n l a, Does none (put n l a)) :
    ∀ (l : List YNode) {m : OMap Addr}, Does none (typeEntries c put loc l m)
  | [], m => .ret
  | [_], m => .panic
  | k :: v :: rest, m => by
    unfold typeEntries
    exact .bind (hc.shape _ _ _) fun _ => .bind (hput _ _ _) fun _ => typeEntries_does hc hput rest

theorem sectionOf_does {v : YNode} {old : α} {read : List YNode → M St α} (h : ∀ l, Does none (read l)) : Does none (sectionOf v old read) := by
  unfold sectionOf
  split
  · exact .ret
  split
  · exact .err
  · exact h _

theorem libraryEntries_does (hc : CallsDo c) : ∀ (ns : List YNode) {l : Lib}, Does none (libraryEntries E c ns l)
  | [], l => .ret
  | [_], l => .panic
  | k :: v :: rest, l => by
    unfold libraryEntries
    refine .bind ?_ fun l' => libraryEntries_does hc rest
    unfold libraryEntry
    split
    · exact .bind (sectionOf_does fun _ => .lift) fun _ => .ret
    split
    · exact .bind (sectionOf_does fun _ => typeEntries_does hc (fun _ _ _ => .quiet Halt.quiet_putType) _) fun _ => .ret
    split
    · exact .bind (sectionOf_does fun _ => typeEntries_does hc (fun _ _ _ => .quiet Halt.quiet_putAnnotationType) _) fun _ => .ret
    split
    · exact .bind .lift fun _ => .ret
    split
    · exact .bind (.quiet Halt.quiet_unmarshalExt) fun _ => .ret
    · exact .ret

theorem linkUses_does (hc : CallsDo c) {i : Nat} : ∀ (l : List (String × String × Option Nat)), Does none (linkUses E c i loc l)
  | [] => .ret
  | (key, value, _) :: rest => by
    unfold linkUses
    refine .bind (hc.library _).attempt fun r => ?_
    cases r with
    | ok j => exact .bind (.quiet Halt.quiet_linkLib) fun _ => linkUses_does hc rest
    | error e => exact .bind (.quiet Halt.quiet_linkLib) fun _ => .bind (linkUses_does hc rest) fun _ => .ret

theorem decodeLibrary_does (hc : CallsDo c) {text path : String} : Does none (decodeLibrary E c text path) := by
  refine .bind (decodeFragment_does fun _ => libraryEntries_does hc _) fun l => .bind (.quiet Halt.quiet_newLib) fun i => .bind putFragment_does fun _ =>
    .bind (linkUses_does hc _) fun good => ?_
  split
  · exact .ret
  · exact .err

theorem parseLibrary_does (hc : CallsDo c) {path : String} : Does none (parseLibrary E c path) := fun s ht => by
  unfold parseLibrary
  cases getFragment s path with
  | some f => cases f <;> exact G.same rfl
  | none =>
    cases E.file path with
    | none => exact G.same rfl
    | some text => exact Does.bind .lift (fun _ => decodeLibrary_does hc) s ht

theorem unmarshalDataType_does (hc : CallsDo c) {path : String} {n : YNode} : Does none (unmarshalDataType E c path n) :=
  .bind .lift fun _ => .bind (hc.shape _ _ _) fun _ => .ret

theorem linkDataTypeUses_does (hc : CallsDo c) {i : Nat} : ∀ (l : List (String × String × Option Nat)), Does none (linkDataTypeUses E c i loc l)
  | [] => .ret
  | (key, value, _) :: rest => by
    unfold linkDataTypeUses
    exact .bind (hc.library _) fun _ => .bind (.quiet Halt.quiet_linkDT) fun _ => linkDataTypeUses_does hc rest

theorem decodeDataType_does (hc : CallsDo c) {text path : String} : Does none (decodeDataType E c text path) := by
  unfold decodeDataType
  split
  · exact .bind (unmarshalDataType_does hc) fun _ => .bind (.quiet Halt.quiet_newDT) fun _ => .bind putFragment_does fun _ => .ret
  · exact .bind (decodeFragment_does fun _ => unmarshalDataType_does hc) fun _ => .bind (.quiet Halt.quiet_newDT) fun _ => .bind putFragment_does fun _ =>
      .bind (linkDataTypeUses_does hc _) fun _ => .ret

theorem parseDataType_does (hc : CallsDo c) {path : String} : Does none (parseDataType E c path) := fun s ht => by
  unfold parseDataType
  cases getFragment s path with
  | some f => cases f <;> exact G.same rfl
  | none =>
    cases E.file path with
    | none => exact G.same rfl
    | some text => exact Does.bind .lift (fun _ => decodeDataType_does hc) s ht

theorem calls_do : ∀ n : Nat, CallsDo (calls E n)
  | 0 => ⟨fun _ _ _ => .diverge, fun _ => .diverge, fun _ => .diverge⟩
  | n + 1 => ⟨fun _ _ _ => makeNewShapeYAML_does (calls_do n), fun _ => parseDataType_does (calls_do n), fun _ => parseLibrary_does (calls_do n)⟩

theorem decodeEntry_does {n : Nat} {text path : String} : Does none (decodeEntry E n text path) := by
  refine .bind .lift fun head => .bind .lift fun kind => ?_
  cases kind with
  | library => exact .bind (decodeLibrary_does (calls_do n)) fun _ => .ret
  | dataType => exact .bind (decodeDataType_does (calls_do n)) fun _ => .ret
  | namedExample => exact .bind decodeNamedExample_does fun _ => .ret

end

end GoRaml.Lines
