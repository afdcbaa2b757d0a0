import Verif.Lemmas.Apart
import Verif.Lemmas.LoadShape

/-!
# Parsed types share no parts: decoding
-/

namespace GoRaml.Apart

open GoRaml GoRaml.Spec

/-- The recursive calls make new types. -/
structure CallsOwn (c : Calls) : Prop where
  makeShape : ∀ v n l s, I s → Own (mark s) (c.makeShape v n l) s fun a s' => New (mark s) s' a
  parseDataType : ∀ p s, I s → Own (mark s) (c.parseDataType p) s fun _ _ => True
  parseLibrary : ∀ p s, I s → Own (mark s) (c.parseLibrary p) s fun _ _ => True

/-- The parts of a shape for the type `a`. -/
def ShapeMine (k : Mark) (s : St) (a : Addr) : Shape → Prop
  | .array f => ∀ x, f.items = some x → Mine k s (.items a) x
  | .object f => (∀ m, f.properties = some m → MineMap k s (.properties a) m) ∧ ∀ m, f.patternProperties = some m → MinePat k s a m
  | .union j _ => j = none
  | _ => True

variable {E : Env} {c : Calls} {k : Mark} {s : St} {a : Addr}

theorem ShapeMine.keep {s' : St} {sh : Shape} (h : ShapeMine k s a sh) (r : R (mark s) s s') : ShapeMine k s' a sh := by
  cases sh <;> try exact h
  · exact ⟨fun m e => (h.1 m e).keep r, fun m e => (h.2 m e).keep r⟩
  · exact fun x e => (h x e).keep r

theorem MineMap.same {s' : St} {u : MapUse} {m : Nat} (h : MineMap k s u m) (hb : s'.bases = s.bases) (hm : (mark s).Le (mark s')) : MineMap k s' u m :=
  ⟨h.new, Nat.lt_of_lt_of_le h.there hm.2, fun w e => h.used w (used_same hb e)⟩

theorem MinePat.same {s' : St} {m : Nat} (h : MinePat k s a m) (hb : s'.bases = s.bases) (hm : (mark s).Le (mark s')) : MinePat k s' a m :=
  ⟨h.new, Nat.lt_of_lt_of_le h.there hm.3, fun w e => h.used w (patterns_same hb e)⟩

theorem ShapeMine.ok {sh : Shape} (h : ShapeMine k s a sh) {b b' : Base} (h1 : b'.shape = some sh) (h2 : b'.facetDefs = b.facetDefs) (h3 : b'.alias = b.alias)
    (h4 : b'.inherits = b.inherits) (h5 : b'.unwrapped = b.unwrapped) (h6 : b'.visited = b.visited) : BaseOK k s a b b' := by
  refine ⟨fun f x e e' => .inr ?_, fun j e e' => ?_, fun f m e e' => .inr ?_, fun f m e e' => .inr ?_, fun _ _ => .inl h2.symm, fun _ _ => .inl h3.symm, fun _ _ => .inl h4.symm,
    .inr ⟨h4.symm, h2.symm⟩, h5, h6⟩
  · cases h1.symm.trans e; exact h x e'
  · cases h1.symm.trans e'; cases h
  · cases h1.symm.trans e; exact h.1 m e'
  · cases h1.symm.trans e; exact h.2 m e'

theorem ShapeMine.upd {sh : Shape} (h : ShapeMine k s a sh) {f : Base → Base} (h1 : ∀ b, (f b).shape = some sh) (h2 : ∀ b, (f b).facetDefs = b.facetDefs)
    (h3 : ∀ b, (f b).alias = b.alias) (h4 : ∀ b, (f b).inherits = b.inherits) : ShapeMine k (updated s a f) a sh := by
  have hr : ∀ {x}, ReferredTo (updated s a f) x → ReferredTo s x := fun hx => by
    rcases referred_upd hx with h | ⟨b, hb, h⟩
    · exact h
    · cases h with
      | «alias» h => exact .alias hb ((h3 b).symm.trans h)
      | parent k1 k2 k3 => exact .parent hb ((h4 b).symm.trans k1) k2 k3
  cases sh with
  | array g =>
    refine fun x hx => ⟨(h x hx).new, by simpa using (h x hx).there, fun q hq => ?_, fun e => (h x hx).referred (hr e)⟩
    rcases held_upd hq with hq | ⟨b, hb, hq⟩
    · exact (h x hx).held _ hq
    · cases hq with
      | items _ _ => rfl
      | member k1 _ _ => cases (h1 b).symm.trans k1
  | object g =>
    refine ⟨fun m hm => ⟨(h.1 m hm).new, (h.1 m hm).there, fun w hw => ?_⟩, fun m hm => ⟨(h.2 m hm).new, (h.2 m hm).there, fun w hw => ?_⟩⟩
    · rcases used_upd hw with hw | ⟨b, hb, hw⟩
      · exact (h.1 m hm).used _ hw
      · cases hw with
        | properties _ _ => rfl
        | facets e => exact (h.1 m hm).used _ (.facets hb ((h2 b).symm.trans e))
    · rcases patterns_upd hw with hw | ⟨e, _⟩
      · exact (h.2 m hm).used _ hw
      · exact e
  | _ => exact h

theorem setShape_own {sh : Shape} (hi : I s) (h : ShapeMine k s a sh) : Own k (setShape a sh) s fun _ s' => ShapeMine k s' a sh :=
  (Own.upd (f := fun b => { b with shape := some sh }) hi fun _ _ => h.ok rfl rfl rfl rfl rfl rfl).post fun _ _ _ _ e => by
    rw [e]; exact h.upd (fun _ => rfl) (fun _ => rfl) (fun _ => rfl) fun _ => rfl

theorem quiet_own {f : Base → Base} (hi : I s) (hf : ∀ b, Quiet b (f b)) : Own k (Heap.updBase a f) s fun _ _ => True :=
  (Own.upd hi fun b _ => (hf b).ok).post fun _ _ _ _ _ => trivial

/-! ## Facets -/

variable (hc : CallsOwn c)
include hc

theorem makeDeclared_own {loc n : String} {data : YNode} (hi : I s) (hk : k.Le (mark s)) :
    Own k (makeDeclared E c loc n data) s fun d s' => (match d with | .property p => New k s' p.base | .pattern _ p => New k s' p.base) ∧ R (mark s) s s' := by
  unfold makeDeclared
  refine .bind ((hc.makeShape _ _ _ s hi).call hk) fun x s1 i1 r1 ⟨hx, f1⟩ => ?_
  refine .bind (Own.getBase i1) fun b s2 i2 r2 ⟨e, _⟩ => ?_
  subst e
  refine .lift i1 fun d hd => ⟨?_, f1⟩
  have hx := hx.mono hk
  unfold declareProperty at hd
  simp only [Out.bind] at hd
  split at hd
  · split at hd
    · cases hd
    · split at hd
      · cases hd; exact hx
      · cases hd
  · cases hd
    have : ∀ {n m : String} {i : Bool} {r : Option Bool}, (nameProperty n m i x r).base = x := fun {n m i r} => by cases r <;> rfl
    show New k _ (nameProperty _ _ _ x _).base
    rw [this]; exact hx

theorem unmarshalProperty_own {loc n : String} {data : YNode} {f : ObjectF} (hi : I s) (hk : k.Le (mark s)) (hf : ShapeMine k s a (.object f)) :
    Own k (unmarshalProperty E c loc n data f) s fun f' s' => ShapeMine k s' a (.object f') := by
  unfold unmarshalProperty
  split
  · have h1 : Own k (ensurePatProps f.patternProperties) s fun i s' => MinePat k s' a i ∧ R (mark s) s s' := by
      cases e : f.patternProperties with
      | some i => exact .ret hi ⟨hf.2 i e, .refl _ _⟩
      | none => exact (Own.newPatProps hi hk).post fun i s' _ _ h => ⟨h.1 a, h.2⟩
    refine h1.bind fun i s1 i1 r1 ⟨hm, f1⟩ => ?_
    refine .bind (makeDeclared_own hc i1 (hk.trans r1.grows)) fun d s2 i2 r2 ⟨hd, f2⟩ => ?_
    cases d with
    | property p => exact .ret i2 ((hf.keep f1).keep f2)
    | pattern n' p =>
      refine .bind (Own.setPatProp i2 hd) fun _ s3 i3 r3 ⟨h3, h4⟩ => .ret i3 ⟨fun m e => ?_, fun m e => ?_⟩
      · exact ((((hf.keep f1).keep f2).1 m e).same h3 h4)
      · cases e; exact (hm.keep f2).same h3 h4
  · have h1 : Own k (ensureProps f.properties) s fun i s' => MineMap k s' (.properties a) i ∧ R (mark s) s s' := by
      cases e : f.properties with
      | some i => exact .ret hi ⟨hf.1 i e, .refl _ _⟩
      | none => exact (Own.newProps hi hk).post fun i s' _ _ h => ⟨h.1 _, h.2⟩
    refine h1.bind fun i s1 i1 r1 ⟨hm, f1⟩ => ?_
    refine .bind (makeDeclared_own hc i1 (hk.trans r1.grows)) fun d s2 i2 r2 ⟨hd, f2⟩ => ?_
    cases d with
    | pattern _ p => exact .ret i2 ((hf.keep f1).keep f2)
    | property p =>
      refine .bind (Own.setProp i2 hd) fun _ s3 i3 r3 ⟨h3, h4⟩ => .ret i3 ⟨fun m e => ?_, fun m e => ?_⟩
      · cases e; exact (hm.keep f2).same h3 h4
      · exact ((((hf.keep f1).keep f2).2 m e).same h3 h4)

theorem unmarshalProperties_own {loc : String} : ∀ (l : List YNode) (f : ObjectF) (s : St), I s → k.Le (mark s) → ShapeMine k s a (.object f) →
    Own k (unmarshalProperties E c loc l f) s fun f' s' => ShapeMine k s' a (.object f')
  | [], _, _, hi, _, hf => .ret hi hf
  | [_], _, _, hi, _, hf => .ret hi hf
  | _ :: _ :: rest, _, _, hi, hk, hf =>
    .bind (unmarshalProperty_own hc hi hk hf) fun f' s1 i1 r1 h1 => unmarshalProperties_own rest f' s1 i1 (hk.trans r1.grows) h1

theorem shapeFacet_own {loc n : String} {sh : Shape} {v : YNode} {m : M St Shape} (hm : shapeFacet E c loc sh n v = some m) (hi : I s) (hk : k.Le (mark s))
    (hs : ShapeMine k s a sh) : Own k m s fun sh' s' => ShapeMine k s' a sh' := by
  have lifted : ∀ {α : Type} {o : Option (Out α)} {g : α → Shape}, (∀ x, ShapeMine k s a (g x)) → (o.map fun o => M.lift (o.bind fun f => .ok (g f))) = some m →
      Own k m s fun sh' s' => ShapeMine k s' a sh' := fun hg hm => by
    obtain ⟨o, _, rfl⟩ := Option.map_eq_some_iff.1 hm
    exact .lift hi fun x hx => by
      cases o <;> simp only [Out.bind, reduceCtorEq] at hx
      cases hx; exact hg _
  cases sh with
  | integer f => exact lifted (g := .integer) (fun _ => trivial) hm
  | number f => exact lifted (g := .number) (fun _ => trivial) hm
  | string f => exact lifted (g := .string) (fun _ => trivial) hm
  | file f => exact lifted (g := .file) (fun _ => trivial) hm
  | boolean e =>
    simp only [shapeFacet] at hm
    split at hm
    · cases hm
      exact .lift hi fun x hx => by
        cases ho : makeEnum E v loc <;> simp only [ho, Out.bind, reduceCtorEq] at hx
        cases hx; trivial
    · cases hm
  | datetime e =>
    simp only [shapeFacet] at hm
    split at hm
    · cases hm
      refine .lift hi fun x hx => ?_
      split at hx
      · cases hx
      · cases ho : orErr "decode format" (E.decodeStr v) <;> simp only [ho, Out.bind, reduceCtorEq] at hx
        cases hx; trivial
    · cases hm
  | array f =>
    obtain ⟨m', h1, rfl⟩ := Option.map_eq_some_iff.1 hm
    refine .bind (Q := fun f' s' => ShapeMine k s' a (.array f')) ?_ fun f' s1 i1 r1 h => .ret i1 h
    have lift' : ∀ {α : Type} {o : Out α} {g : α → ArrayF}, (∀ x, (g x).items = f.items) → Own k (M.lift (o.bind fun n => .ok (g n))) s fun f' s' => ShapeMine k s' a (.array f') := fun {_ o _} hg =>
      .lift hi fun x hx => by
        cases o <;> simp only [Out.bind, reduceCtorEq] at hx
        cases hx
        exact fun y hy => hs y ((hg _).symm.trans hy)
    unfold arrayFacet at h1
    split at h1
    · cases h1; exact lift' fun _ => rfl
    split at h1
    · cases h1; exact lift' fun _ => rfl
    split at h1
    · cases h1
      refine .bind ((hc.makeShape _ _ _ s hi).call hk) fun x s1 i1 r1 ⟨hx, f1⟩ => .ret i1 fun y hy => ?_
      cases hy; exact (hx.mono hk).mine _
    split at h1
    · cases h1; exact lift' fun _ => rfl
    · cases h1
  | object f =>
    obtain ⟨m', h1, rfl⟩ := Option.map_eq_some_iff.1 hm
    refine .bind (Q := fun f' s' => ShapeMine k s' a (.object f')) ?_ fun f' s1 i1 r1 h => .ret i1 h
    have lift' : ∀ {α : Type} {o : Out α} {g : α → ObjectF}, (∀ x, (g x).properties = f.properties ∧ (g x).patternProperties = f.patternProperties) →
        Own k (M.lift (o.bind fun n => .ok (g n))) s fun f' s' => ShapeMine k s' a (.object f') := fun {_ o _} hg =>
      .lift hi fun x hx => by
        cases o <;> simp only [Out.bind, reduceCtorEq] at hx
        cases hx
        exact ⟨fun y hy => hs.1 y ((hg _).1.symm.trans hy), fun y hy => hs.2 y ((hg _).2.symm.trans hy)⟩
    unfold objectFacet at h1
    iterate 5
      split at h1
      · cases h1; exact lift' fun _ => ⟨rfl, rfl⟩
    split at h1
    · cases h1
      split
      · exact .err hi
      · exact unmarshalProperties_own hc _ _ _ hi hk hs
    · cases h1
  | _ => cases hm

omit hc in
theorem customFacet_own {loc n : String} {v : YNode} (hi : I s) : Own k (customFacet E a loc n v) s fun _ s' => R (mark s) s s' := by
  unfold customFacet
  refine .bind (Q := fun _ s' => s' = s) (.lift hi fun _ _ => rfl) fun x s1 i1 r1 e => ?_
  subst e
  refine .bind (Own.getBase i1) fun b s2 i2 r2 ⟨e, _⟩ => ?_
  subst e
  split
  · exact .panic i1
  · rename_i i _
    exact (Own.other (m := Heap.setFacet i n x) (x := ()) rfl i1 rfl rfl rfl rfl rfl rfl).post fun _ _ _ _ h => h.2.1 ▸ h.2.2

theorem unmarshalFacets_own {loc : String} : ∀ (l : List YNode) (sh : Shape) (s : St), I s → k.Le (mark s) → ShapeMine k s a sh → Own k (unmarshalFacets E c a loc l sh) s fun _ _ => True
  | [], _, _, hi, _, _ => .ret hi trivial
  | [_], _, _, hi, _, _ => .ret hi trivial
  | n :: v :: rest, sh, s, hi, hk, hs => by
    unfold unmarshalFacets
    refine .bind (Q := fun sh' s' => ShapeMine k s' a sh') ?_ fun sh' s1 i1 r1 h => unmarshalFacets_own rest sh' s1 i1 (hk.trans r1.grows) h
    unfold unmarshalFacet
    split
    · rename_i m hm
      exact .bind (shapeFacet_own hc hm hi hk hs) fun sh' s1 i1 r1 h => .bind (setShape_own i1 h) fun _ s2 i2 r2 h2 => .ret i2 h2
    · exact .bind (customFacet_own hi) fun _ s1 i1 r1 f1 => .ret i1 (hs.keep f1)

theorem unmarshalYAMLNodes_own {loc : String} {sh : Shape} {fs : Option (List YNode)} (hi : I s) (hk : k.Le (mark s)) (hs : ShapeMine k s a sh) :
    Own k (unmarshalYAMLNodes E c a loc sh fs) s fun _ _ => True := by
  unfold unmarshalYAMLNodes
  split
  · exact .ret hi trivial
  · exact .ret hi trivial
  · exact .ret hi trivial
  · exact (setShape_own (sh := .unknown fs) hi trivial).post fun _ _ _ _ _ => trivial
  · simp only
    split
    · exact .err hi
    · exact unmarshalFacets_own hc _ _ _ hi hk hs

omit hc in
theorem emptyShape_mine (t : String) : ShapeMine k s a (emptyShape t) := by
  rcases Load.emptyShape_cases t with h | h | h | h | h | h | h | h | h | h | h | h | h | h | h | h <;> rw [h] <;>
    first | trivial | exact ⟨fun _ h => (by cases h), fun _ h => (by cases h)⟩ | exact fun _ h => (by cases h) | rfl

theorem makeConcrete_own {t : String} {fs : Option (List YNode)} (hi : I s) (hk : k.Le (mark s)) : Own k (makeConcrete E c a t fs) s fun _ _ => True := by
  unfold makeConcrete
  refine .bind (Own.getBase hi) fun b s1 i1 r1 ⟨e, _⟩ => ?_
  subst e
  refine .bind (Own.upd i1 fun _ _ => (emptyShape_mine t).ok rfl rfl rfl rfl rfl rfl) fun _ s2 i2 r2 e => ?_
  exact unmarshalYAMLNodes_own hc i2 (hk.trans r2.grows) (emptyShape_mine t)

/-! ## Types -/

omit hc in
theorem newExt_own {location : String} {n v : YNode} (hi : I s) : Own k (unmarshalCustomDomainExtension E location n v) s fun _ s' => R (mark s) s s' := by
  unfold unmarshalCustomDomainExtension
  refine .bind (Q := fun _ s' => s' = s) (.lift hi fun _ _ => rfl) fun name s1 i1 r1 e => ?_
  subst e
  refine .bind (Q := fun _ s' => s' = s1) (.lift i1 fun _ _ => rfl) fun x s2 i2 r2 e => ?_
  subst e
  exact (Own.other (s := s2) (x := (name, s2.domainExts.length)) (s' := { s2 with domainExts := s2.domainExts ++ [{ name, value := x, location }] }) rfl i2 rfl rfl rfl rfl rfl rfl).post
    fun _ _ _ _ h => h.2.1 ▸ h.2.2

omit hc in
/-- Lifted outcomes. -/
theorem Own.pure {α : Type} {o : Out α} (hi : I s) : Own k (M.lift o) s fun _ _ => True := .lift hi fun _ _ => trivial

omit hc in
theorem Own.true {α : Type} {m : M St α} {Q : α → St → Prop} (h : Own k m s Q) : Own k m s fun _ _ => True := h.post fun _ _ _ _ _ => trivial

omit hc in
theorem exampleEntries_own {loc : String} : ∀ (l : List YNode) (ex : Example) (s : St), I s → Own k (exampleEntries E loc l ex) s fun _ _ => True
  | [], _, _, hi => .ret hi trivial
  | [_], _, _, hi => .panic hi
  | n :: v :: rest, ex, s, hi => by
    unfold exampleEntries
    refine .bind (Q := fun _ _ => True) ?_ fun ex' s1 i1 _ _ => exampleEntries_own rest ex' s1 i1
    unfold exampleDecode
    split
    · exact .bind (.pure hi) fun _ _ i1 _ _ => .ret i1 trivial
    split
    · exact .bind (.pure hi) fun _ _ i1 _ _ => .ret i1 trivial
    split
    · exact .bind (.pure hi) fun _ _ i1 _ _ => .ret i1 trivial
    split
    · exact .bind (newExt_own hi) fun _ _ i1 _ _ => .ret i1 trivial
    · exact .ret hi trivial

omit hc in
theorem makeExample_own {v : YNode} {loc : String} (hi : I s) : Own k (makeExample E v loc) s fun _ _ => True := by
  unfold makeExample
  split
  · refine .bind (.pure hi) fun x _ i1 _ _ => ?_
    split
    · exact .bind (exampleEntries_own _ _ _ i1) fun _ _ i2 _ _ => .bind (.pure i2) fun _ _ i3 _ _ => .ret i3 trivial
    · exact .bind (.pure i1) fun _ _ i2 _ _ => .ret i2 trivial
  · exact .bind (.pure hi) fun _ _ i2 _ _ => .ret i2 trivial

omit hc in
theorem namedExamples_own {loc : String} : ∀ (l : List YNode) (m : OMap Example) (s : St), I s → Own k (namedExamples E loc l m) s fun _ _ => True
  | [], _, _, hi => .ret hi trivial
  | [_], _, _, hi => .panic hi
  | _ :: _ :: rest, _, _, hi => .bind (makeExample_own hi) fun _ s1 i1 _ _ => namedExamples_own rest _ s1 i1

omit hc in
theorem decodeFragment_own {α : Type} {text : String} {f : YNode → M St α} {Q : α → St → Prop} (hi : I s) (hf : ∀ n, Own k (f n) s Q) : Own k (decodeFragment E text f) s Q := by
  unfold decodeFragment
  split
  · exact .err hi
  · split
    · exact .panic hi
    · split
      · exact .err hi
      · exact hf _

omit hc in
theorem decodeNamedExample_own {text path : String} (hi : I s) : Own k (decodeNamedExample E text path) s fun _ _ => True := by
  unfold decodeNamedExample
  refine .bind (decodeFragment_own hi fun n => namedExamples_own _ _ _ hi) fun m s1 i1 _ _ => ?_
  refine .bind (Own.other (m := Heap.newNE m) (x := s1.nes.length) rfl i1 rfl rfl rfl rfl rfl rfl).true fun _ _ i2 _ _ => ?_
  exact .bind (Own.putFragment i2) fun _ _ i3 _ _ => .ret i3 trivial

omit hc in
theorem parseNamedExample_own {path : String} (hi : I s) : Own k (parseNamedExample E path) s fun _ _ => True := by
  cases hg : getFragment s path with
  | some f =>
    cases f with
    | namedExample i => exact .congr (m := M.ret i) (by simp [parseNamedExample, hg, M.ret]) (.ret hi trivial)
    | library i => exact .congr (m := M.panic "interface conversion") (by simp [parseNamedExample, hg, M.panic]) (.panic hi)
    | dataType i => exact .congr (m := M.panic "interface conversion") (by simp [parseNamedExample, hg, M.panic]) (.panic hi)
  | none =>
    cases hf : E.file path with
    | none => exact .congr (m := M.err "open fragment file") (by simp [parseNamedExample, hg, hf, M.err]) (.err hi)
    | some text =>
      refine .congr (m := M.bind (M.lift (checkFragmentKind path text .namedExample)) fun _ => decodeNamedExample E text path) (by simp [parseNamedExample, hg, hf]) ?_
      exact .bind (.pure hi) fun _ _ i1 _ _ => decodeNamedExample_own i1

omit hc in
theorem decodeExamples_own {loc : String} {v : YNode} (hi : I s) : Own k (decodeExamples E a loc v) s fun _ _ => True := by
  unfold decodeExamples
  refine .bind (Own.getBase hi) fun b s1 i1 r1 ⟨e, _⟩ => ?_
  split
  · exact .err i1
  split
  · refine .bind (parseNamedExample_own i1) fun i s2 i2 _ _ => ?_
    exact .congr (m := Heap.updBase a fun b => { b with examples := some { link := s2.nes[i]? } }) rfl (quiet_own i2 fun _ => ⟨rfl, rfl, rfl, rfl, rfl, rfl⟩)
  split
  · exact .err i1
  · exact .bind (namedExamples_own _ _ _ i1) fun _ _ i2 _ _ => quiet_own i2 fun _ => ⟨rfl, rfl, rfl, rfl, rfl, rfl⟩

theorem decodeFacetDefs_own {loc : String} {i : Nat} : ∀ (l : List YNode) (s : St), I s → k.Le (mark s) → Own k (decodeFacetDefs E c loc i l) s fun _ _ => True
  | [], _, hi, _ => .ret hi trivial
  | [_], _, hi, _ => .panic hi
  | n :: v :: rest, s, hi, hk => by
    unfold decodeFacetDefs
    refine .bind ((hc.makeShape _ _ _ s hi).call hk) fun x s1 i1 r1 ⟨hx, f1⟩ => ?_
    refine .bind (Own.getBase i1) fun b s2 i2 r2 ⟨e, _⟩ => ?_
    subst e
    have : ∀ {n m : String} {i : Bool} {r : Option Bool}, (nameProperty n m i x r).base = x := fun {n m i r} => by cases r <;> rfl
    refine .bind (Own.setProp i2 (by rw [this]; exact hx.mono hk)) fun _ s3 i3 r3 _ => ?_
    exact decodeFacetDefs_own rest s3 i3 ((hk.trans r1.grows).trans r3.grows)

omit hc in
theorem Own.ite {α : Type} {p : Prop} [Decidable p] {x y : M St α} {Q : α → St → Prop} (hx : Own k x s Q) (hy : Own k y s Q) : Own k (if p then x else y) s Q := by
  by_cases h : p
  · rw [if_pos h]; exact hx
  · rw [if_neg h]; exact hy

theorem decodeValueNode_own {loc : String} {n v : YNode} (hi : I s) (hk : k.Le (mark s)) : Own k (decodeValueNode E c a loc n v) s fun _ _ => True := by
  unfold decodeValueNode
  extract_lets none_
  have q : ∀ {α : Type} {x : α} {f : Base → Base} {s : St}, I s → (∀ b, Quiet b (f b)) → Own k (M.bind (Heap.updBase a f) fun _ => M.ret x) s fun _ _ => True := fun hi hf =>
    .bind (quiet_own hi hf) fun _ _ i1 _ _ => .ret i1 trivial
  refine Own.ite ?_ ?_
  · exact .ret hi trivial
  refine Own.ite ?_ ?_
  · exact .bind (.pure hi) fun _ _ i1 _ _ => q i1 fun _ => ⟨rfl, rfl, rfl, rfl, rfl, rfl⟩
  refine Own.ite ?_ ?_
  · exact .bind (.pure hi) fun _ _ i1 _ _ => q i1 fun _ => ⟨rfl, rfl, rfl, rfl, rfl, rfl⟩
  refine Own.ite ?_ ?_
  · exact .bind (.pure hi) fun _ _ i1 _ _ => q i1 fun _ => ⟨rfl, rfl, rfl, rfl, rfl, rfl⟩
  refine Own.ite ?_ ?_
  · refine .bind (Own.newProps hi hk) fun i s1 i1 r1 ⟨hm, f1⟩ => ?_
    refine .bind (Own.upd i1 fun b _ => ?_) fun _ s2 i2 r2 _ => .bind (decodeFacetDefs_own hc _ _ i2 ((hk.trans r1.grows).trans r2.grows)) fun _ _ i3 _ _ => .ret i3 trivial
    exact ⟨fun _ _ _ _ => .inl rfl, fun _ _ _ => .inl rfl, fun _ _ _ _ => .inl rfl, fun _ _ _ _ => .inl rfl, fun m e => .inr (by cases e; exact hm _),
      fun _ _ => .inl rfl, fun _ _ => .inl rfl, .inl rfl, rfl, rfl⟩
  refine Own.ite ?_ ?_
  · refine .bind (Own.getBase hi) fun b s1 i1 r1 ⟨e, _⟩ => ?_
    split
    · exact .err i1
    · exact .bind (makeExample_own i1) fun _ _ i2 _ _ => q i2 fun _ => ⟨rfl, rfl, rfl, rfl, rfl, rfl⟩
  refine Own.ite ?_ ?_
  · exact .bind (decodeExamples_own hi) fun _ _ i1 _ _ => .ret i1 trivial
  refine Own.ite ?_ ?_
  · exact .bind (.pure hi) fun _ _ i1 _ _ => q i1 fun _ => ⟨rfl, rfl, rfl, rfl, rfl, rfl⟩
  refine Own.ite ?_ ?_
  · exact .ret hi trivial
  refine Own.ite ?_ ?_
  · exact .bind (newExt_own hi) fun _ _ i1 _ _ => q i1 fun _ => ⟨rfl, rfl, rfl, rfl, rfl, rfl⟩
  · exact .ret hi trivial

theorem decodeEntries_own {loc : String} : ∀ (l : List YNode) (t : Option YNode) (fs : List YNode) (s : St), I s → k.Le (mark s) → Own k (decodeEntries E c a loc l t fs) s fun _ _ => True
  | [], _, _, _, hi, _ => .ret hi trivial
  | [_], _, _, _, hi, _ => .panic hi
  | _ :: _ :: rest, _, _, _, hi, hk => .bind (decodeValueNode_own hc hi hk) fun _ s1 i1 r1 _ => decodeEntries_own rest _ _ s1 i1 (hk.trans r1.grows)

theorem decode_own {loc : String} {v : YNode} (hi : I s) (hk : k.Le (mark s)) : Own k (decode E c a loc v) s fun _ _ => True := by
  unfold decode
  split
  · exact .ret hi trivial
  split
  · exact .err hi
  · exact .bind (decodeEntries_own hc _ _ _ _ hi hk) fun _ _ i1 _ _ => .ret i1 trivial

theorem makeInherits_own {n loc : String} : ∀ (l : List YNode) (s : St), I s → k.Le (mark s) → Own k (makeInherits c n loc l) s fun ps s' => (∀ x ∈ ps, New k s' x) ∧ R (mark s) s s'
  | [], s, hi, _ => .ret hi ⟨fun _ h => (by cases h), .refl _ s⟩
  | v :: rest, s, hi, hk => by
    unfold makeInherits
    split
    · exact .err hi
    split
    · exact .err hi
    refine .bind ((hc.makeShape _ _ _ s hi).call hk) fun x s1 i1 r1 ⟨hx, f1⟩ => ?_
    refine .bind (makeInherits_own rest s1 i1 (hk.trans r1.grows)) fun l s2 i2 r2 ⟨hl, f2⟩ => .ret i2 ⟨fun y hy => ?_, f1.trans (f2.mono f1.grows)⟩
    rcases List.mem_cons.1 hy with rfl | hy
    · exact (hx.mono hk).keep f2
    · exact hl y hy

theorem makeShapeType_own {t : YNode} {fs : Option (List YNode)} {n loc : String} (hi : I s) (hk : k.Le (mark s)) : Own k (makeShapeType E c t fs n loc a) s fun _ _ => True := by
  unfold makeShapeType
  split
  · exact .err hi
  · exact .err hi
  · exact .err hi
  · exact .err hi
  · split
    · split
      · exact .bind (.pure hi) fun _ _ i1 _ _ => .ret i1 trivial
      split
      · refine .bind (quiet_own hi fun _ => ⟨rfl, rfl, rfl, rfl, rfl, rfl⟩) fun _ _ i1 _ _ => .bind (.pure i1) fun js _ i2 _ _ => ?_
        exact .bind (setShape_own (sh := .json t.value (some js)) i2 trivial) fun _ _ i3 _ _ => .ret i3 trivial
      · exact .ret hi trivial
    split
    · exact .bind ((hc.parseDataType _ s hi).call hk) fun _ _ i1 _ _ => .bind (quiet_own i1 fun _ => ⟨rfl, rfl, rfl, rfl, rfl, rfl⟩) fun _ _ i2 _ _ => .ret i2 trivial
    split
    · exact .ret hi trivial
    · exact .err hi
  · refine .bind (makeInherits_own hc _ _ hi hk) fun l s1 i1 r1 ⟨hl, _⟩ => .bind (Own.newSlice i1) fun i s2 i2 r2 ⟨h1, h2, f2⟩ => ?_
    refine .bind (Own.upd i2 fun b _ => ?_) fun _ _ i3 _ _ => .ret i3 trivial
    exact ⟨fun _ _ _ _ => .inl rfl, fun _ _ _ => .inl rfl, fun _ _ _ _ => .inl rfl, fun _ _ _ _ => .inl rfl, fun _ _ => .inl rfl, fun _ _ => .inl rfl,
      fun j e => .inr (by cases e; exact ⟨h1, fun l' e' x hx => by cases h2.symm.trans e'; exact .inr ((hl x hx).keep f2)⟩), .inl rfl, rfl, rfl⟩

theorem finishShape_own {t : String} {fs : Option (List YNode)} (hi : I s) (hk : k.Le (mark s)) : Own k (finishShape E c a t fs) s fun x _ => x = a := by
  unfold finishShape
  refine .bind (makeConcrete_own hc hi hk) fun _ s1 i1 r1 _ => ?_
  split
  · exact .bind (Own.other (m := Heap.pushUnresolved a) (x := ()) rfl i1 rfl rfl rfl rfl rfl rfl).true fun _ _ i2 _ _ => .ret i2 rfl
  · exact .ret i1 rfl

theorem makeNewShapeYAML_own {v : YNode} {n loc : String} (hi : I s) : Own (mark s) (makeNewShapeYAML E c v n loc) s fun a s' => New (mark s) s' a := by
  unfold makeNewShapeYAML
  refine .bind (Own.makeBaseShape hi (.refl _)) fun a s1 i1 r1 ⟨h1, _⟩ => ?_
  refine .bind ((decode_own hc i1 (.refl _)).call r1.grows) fun r s2 i2 r2 ⟨_, f2⟩ => ?_
  have g2 := r1.grows.trans r2.grows
  have h2 := h1.keep f2
  have fin : ∀ {t : String} {s3 : St}, I s3 → New (mark s) s3 a → (mark s).Le (mark s3) → Own (mark s) (finishShape E c a t r.2) s3 fun a s' => New (mark s) s' a := fun i3 h3 g3 =>
    ((finishShape_own hc i3 (.refl _)).call g3).post fun x s4 _ _ ⟨e, f⟩ => by rw [e]; exact h3.keep f
  split
  · refine .bind (Q := fun _ s' => s' = s2) (.lift i2 fun _ _ => rfl) fun t s3 i3 r3 e => ?_
    subst e
    exact fin i3 h2 g2
  · refine .bind ((makeShapeType_own hc i2 (.refl _)).call g2) fun st s3 i3 r3 ⟨_, f3⟩ => ?_
    split
    · exact .ret i3 (h2.keep f3)
    · exact fin i3 (h2.keep f3) (g2.trans r3.grows)

/-! ## Fragments -/

omit hc in
theorem new_set {m : OMap Addr} {n : String} {x : Addr} (h : ∀ e ∈ m, New k s e.2) (hx : New k s x) : ∀ e ∈ OMap.set m n x, New k s e.2 := fun e he => by
  rcases mem_set he with he | rfl
  · exact h e he
  · exact hx

theorem typeEntries_own {put : String → String → Addr → M St Unit} {loc : String}
    (hput : ∀ n l x s, I s → Own k (put n l x) s fun _ s' => R (mark s) s s') : ∀ (l : List YNode) (m : OMap Addr) (s : St), I s → k.Le (mark s) → (∀ e ∈ m, New k s e.2) →
    Own k (typeEntries c put loc l m) s fun m' s' => (∀ e ∈ m', New k s' e.2) ∧ R (mark s) s s'
  | [], _, s, hi, _, hm => .ret hi ⟨hm, .refl _ s⟩
  | [_], _, _, hi, _, _ => .panic hi
  | n :: v :: rest, m, s, hi, hk, hm => by
    unfold typeEntries
    refine .bind ((hc.makeShape _ _ _ s hi).call hk) fun x s1 i1 r1 ⟨hx, f1⟩ => .bind (hput _ _ _ _ i1) fun _ s2 i2 r2 f2 => ?_
    refine (typeEntries_own hput rest _ s2 i2 ((hk.trans r1.grows).trans r2.grows) (new_set (fun e he => ((hm e he).keep f1).keep f2) ((hx.mono hk).keep f2))).post
      fun m' s3 _ _ ⟨h1, f3⟩ => ⟨h1, f1.trans ((f2.trans (f3.mono f2.grows)).mono f1.grows)⟩

/-- The types of a library are new. -/
def LibNew (k : Mark) (s : St) (l : Lib) : Prop := ∀ e, e ∈ l.types ∨ e ∈ l.annotationTypes → New k s e.2

omit hc in
theorem LibNew.keep {s' : St} {l : Lib} (h : LibNew k s l) (r : R (mark s) s s') : LibNew k s' l := fun e he => (h e he).keep r

omit hc in
theorem sectionOf_own {α : Type} {v : YNode} {old : α} {f : List YNode → M St α} {Q : α → St → Prop} (hi : I s) (ho : Q old s) (hf : ∀ l, Own k (f l) s Q) :
    Own k (sectionOf v old f) s Q := by
  unfold sectionOf
  split
  · exact .ret hi ho
  split
  · exact .err hi
  · exact hf _

theorem libraryEntry_own {n v : YNode} {l : Lib} (hi : I s) (hk : k.Le (mark s)) (hl : LibNew k s l) : Own k (libraryEntry E c n v l) s fun l' s' => LibNew k s' l' := by
  unfold libraryEntry
  split
  · refine .bind (Q := fun _ s' => s' = s) (sectionOf_own hi rfl fun _ => .lift hi fun _ _ => rfl) fun m s1 i1 r1 e => .ret i1 ?_
    subst e; exact hl
  split
  · refine .bind (sectionOf_own (Q := fun m' s' => (∀ e ∈ m', New k s' e.2) ∧ R (mark s) s s') hi ⟨fun e he => hl e (.inl he), .refl _ s⟩ fun _ =>
      typeEntries_own hc (fun n l x s hi => (Own.other (m := Heap.putType n l x) (x := ()) rfl hi rfl rfl rfl rfl rfl rfl).post fun _ _ _ _ h => h.2.1 ▸ h.2.2) _ _ _ hi hk
        (fun _ h => (by cases h))) fun m s1 i1 r1 ⟨h1, f1⟩ => .ret i1 fun e he => ?_
    exact he.elim (h1 e) fun he => (hl e (.inr he)).keep f1
  split
  · refine .bind (sectionOf_own (Q := fun m' s' => (∀ e ∈ m', New k s' e.2) ∧ R (mark s) s s') hi ⟨fun e he => hl e (.inr he), .refl _ s⟩ fun _ =>
      typeEntries_own hc (fun n l x s hi => (Own.other (m := Heap.putAnnotationType n l x) (x := ()) rfl hi rfl rfl rfl rfl rfl rfl).post fun _ _ _ _ h => h.2.1 ▸ h.2.2) _ _ _ hi hk
        (fun _ h => (by cases h))) fun m s1 i1 r1 ⟨h1, f1⟩ => .ret i1 fun e he => ?_
    exact he.elim (fun he => (hl e (.inl he)).keep f1) (h1 e)
  split
  · refine .bind (Q := fun _ s' => s' = s) (.lift hi fun _ _ => rfl) fun m s1 i1 r1 e => .ret i1 ?_
    subst e; exact hl
  split
  · exact .bind (newExt_own hi) fun _ s1 i1 _ f1 => .ret i1 (hl.keep f1)
  · exact .ret hi hl

theorem libraryEntries_own : ∀ (ns : List YNode) (l : Lib) (s : St), I s → k.Le (mark s) → LibNew k s l → Own k (libraryEntries E c ns l) s fun l' s' => LibNew k s' l'
  | [], _, _, hi, _, hl => .ret hi hl
  | [_], _, _, hi, _, _ => .panic hi
  | _ :: _ :: rest, _, _, hi, hk, hl => .bind (libraryEntry_own hc hi hk hl) fun l' s1 i1 r1 h => libraryEntries_own rest l' s1 i1 (hk.trans r1.grows) h

theorem linkUses_own {i : Nat} {loc : String} : ∀ (l : List (String × String × Option Nat)) (s : St), I s → k.Le (mark s) → Own k (linkUses E c i loc l) s fun _ _ => True
  | [], _, hi, _ => .ret hi trivial
  | (n, v, _) :: rest, s, hi, hk => by
    unfold linkUses
    refine .bind ((hc.parseLibrary _ s hi).call hk).attempt fun r s1 i1 r1 _ => ?_
    split
    · exact .bind (Own.linkLib i1) fun _ s2 i2 r2 _ => linkUses_own rest s2 i2 ((hk.trans r1.grows).trans r2.grows)
    · exact .bind (Own.linkLib i1) fun _ s2 i2 r2 _ => .bind (linkUses_own rest s2 i2 ((hk.trans r1.grows).trans r2.grows)) fun _ _ i3 _ _ => .ret i3 trivial

theorem decodeLibrary_own {text path : String} (hi : I s) (hk : k.Le (mark s)) : Own k (decodeLibrary E c text path) s fun _ _ => True := by
  unfold decodeLibrary
  refine .bind (decodeFragment_own hi fun n => libraryEntries_own hc _ _ _ hi hk fun e he => (by rcases he with he | he <;> cases he)) fun l s1 i1 r1 hl => ?_
  refine .bind (Own.newLib i1 hl) fun i s2 i2 r2 _ => .bind (Own.putFragment i2) fun _ s3 i3 r3 _ => ?_
  refine .bind (linkUses_own hc _ _ i3 (((hk.trans r1.grows).trans r2.grows).trans r3.grows)) fun g s4 i4 _ _ => ?_
  split
  · exact .ret i4 trivial
  · exact .err i4

theorem parseLibrary_own {path : String} (hi : I s) (hk : k.Le (mark s)) : Own k (parseLibrary E c path) s fun _ _ => True := by
  cases hg : getFragment s path with
  | some f =>
    cases f with
    | library i => exact .congr (m := M.ret i) (by simp [parseLibrary, hg, M.ret]) (.ret hi trivial)
    | namedExample i => exact .congr (m := M.panic "interface conversion") (by simp [parseLibrary, hg, M.panic]) (.panic hi)
    | dataType i => exact .congr (m := M.panic "interface conversion") (by simp [parseLibrary, hg, M.panic]) (.panic hi)
  | none =>
    cases hf : E.file path with
    | none => exact .congr (m := M.err "open fragment file") (by simp [parseLibrary, hg, hf, M.err]) (.err hi)
    | some text =>
      refine .congr (m := M.bind (M.lift (checkFragmentKind path text .library)) fun _ => decodeLibrary E c text path) (by simp [parseLibrary, hg, hf]) ?_
      exact .bind (.pure hi) fun _ _ i1 r1 _ => decodeLibrary_own hc i1 (hk.trans r1.grows)

theorem unmarshalDataType_own {path : String} {n : YNode} (hi : I s) (hk : k.Le (mark s)) : Own k (unmarshalDataType E c path n) s fun d s' => ∀ x, d.shape = some x → New k s' x := by
  unfold unmarshalDataType
  refine .bind (Q := fun _ s' => s' = s) (.lift hi fun _ _ => rfl) fun r s1 i1 r1 e => ?_
  subst e
  exact .bind ((hc.makeShape _ _ _ s1 i1).call hk) fun x s2 i2 r2 ⟨hx, _⟩ => .ret i2 fun y hy => by cases hy; exact hx.mono hk

theorem linkDataTypeUses_own {i : Nat} {loc : String} : ∀ (l : List (String × String × Option Nat)) (s : St), I s → k.Le (mark s) → Own k (linkDataTypeUses E c i loc l) s fun _ _ => True
  | [], _, hi, _ => .ret hi trivial
  | (n, v, _) :: rest, s, hi, hk => by
    unfold linkDataTypeUses
    exact .bind ((hc.parseLibrary _ s hi).call hk) fun r s1 i1 r1 _ => .bind (Own.linkDT i1) fun _ s2 i2 r2 _ =>
      linkDataTypeUses_own rest s2 i2 ((hk.trans r1.grows).trans r2.grows)

theorem decodeDataType_own {text path : String} (hi : I s) (hk : k.Le (mark s)) : Own k (decodeDataType E c text path) s fun _ _ => True := by
  unfold decodeDataType
  split
  · refine .bind (unmarshalDataType_own hc hi hk) fun d s1 i1 r1 hd => .bind (Own.newDT i1 hd) fun i s2 i2 r2 _ => ?_
    exact .bind (Own.putFragment i2) fun _ _ i3 _ _ => .ret i3 trivial
  · refine .bind (decodeFragment_own hi fun n => unmarshalDataType_own hc hi hk) fun d s1 i1 r1 hd => .bind (Own.newDT i1 hd) fun i s2 i2 r2 _ => ?_
    exact .bind (Own.putFragment i2) fun _ _ i3 r3 _ => .bind (linkDataTypeUses_own hc _ _ i3 (((hk.trans r1.grows).trans r2.grows).trans r3.grows)) fun _ _ i4 _ _ => .ret i4 trivial

theorem parseDataType_own {path : String} (hi : I s) (hk : k.Le (mark s)) : Own k (parseDataType E c path) s fun _ _ => True := by
  cases hg : getFragment s path with
  | some f =>
    cases f with
    | dataType i => exact .congr (m := M.ret i) (by simp [parseDataType, hg, M.ret]) (.ret hi trivial)
    | namedExample i => exact .congr (m := M.panic "interface conversion") (by simp [parseDataType, hg, M.panic]) (.panic hi)
    | library i => exact .congr (m := M.panic "interface conversion") (by simp [parseDataType, hg, M.panic]) (.panic hi)
  | none =>
    cases hf : E.file path with
    | none => exact .congr (m := M.err "open fragment file") (by simp [parseDataType, hg, hf, M.err]) (.err hi)
    | some text =>
      refine .congr (m := M.bind (M.lift (checkFragmentKind path text .dataType)) fun _ => decodeDataType E c text path) (by simp [parseDataType, hg, hf]) ?_
      exact .bind (.pure hi) fun _ _ i1 r1 _ => decodeDataType_own hc i1 (hk.trans r1.grows)

omit hc in
theorem calls_own : ∀ n : Nat, CallsOwn (calls E n)
  | 0 => ⟨fun _ _ _ _ hi => .diverge hi, fun _ _ hi => .diverge hi, fun _ _ hi => .diverge hi⟩
  | n + 1 => ⟨fun _ _ _ _ hi => makeNewShapeYAML_own (calls_own n) hi, fun _ _ hi => parseDataType_own (calls_own n) hi (.refl _), fun _ _ hi => parseLibrary_own (calls_own n) hi (.refl _)⟩

end GoRaml.Apart
