import Verif.Lemmas.Commons

/-!
# Verdicts that are right whenever they are given, at every fuel
-/

namespace GoRaml

open Spec

/-- The verdict is right if one is given, and there is no panic. -/
structure Right (o : Out Unit) (P : Prop) : Prop where
  ok : o = .ok () → P
  err : ∀ m, o = .err m → ¬ P
  calm : ∀ m, o ≠ .panic m

theorem Right.congr {o : Out Unit} {P Q : Prop} (h : Right o P) (hpq : P ↔ Q) : Right o Q :=
  ⟨fun ho => hpq.1 (h.ok ho), fun m ho hq => h.err m ho (hpq.2 hq), h.calm⟩

theorem Right.of {o : Out Unit} {P : Prop} (h : Sound o P) (hc : ∀ m, o ≠ .panic m) : Right o P := ⟨h.1, h.2, hc⟩

theorem Right.nil : Right (.ok ()) True := ⟨fun _ => trivial, by simp, by simp⟩

theorem Right.fail {m : String} {P : Prop} (h : ¬ P) : Right (.err m) P := ⟨by simp, fun _ _ => h, by simp⟩

theorem Right.diverge {P : Prop} : Right .diverge P := ⟨by simp, by simp, by simp⟩

theorem Right.bind {o : Out Unit} {f : Unit → Out Unit} {P Q : Prop} (ho : Right o P) (hf : P → Right (f ()) Q) :
    Right (o.bind f) (P ∧ Q) := by
  cases o with
  | ok u =>
    have hP := ho.ok rfl
    exact (hf hP).congr (by simp [hP])
  | err m => exact .fail fun h => ho.err m rfl h.1
  | panic m => exact absurd rfl (ho.calm m)
  | diverge => exact .diverge

theorem Right.forEach {α : Type} {f : α → Out Unit} {P : α → Prop} {l : List α} (h : ∀ x ∈ l, Right (f x) (P x)) :
    Right (Out.forEach f l) (∀ x ∈ l, P x) := by
  induction l with
  | nil => exact Right.nil.congr (by simp)
  | cons x l ih => exact (Right.bind (h x (by simp)) fun _ => ih fun y hy => h y (by simp [hy])).congr (by simp)

/-! ## Membership -/

theorem validate_right (E : Ext) {h : St} (hc : Closed h) (n : Nat) {a : Addr} (ha : a < h.bases.length) {v : GoVal} (hv : GoValue v) :
    Right (validate E h n a v) (Valid E h a v) := .of (validate_sound E h n a v hv) fun m => validate_no_panic E hc n a ha v m

/-! ## Consistency of definitions -/

theorem bind_panics {o : Out Unit} {f : Unit → Out Unit} {m : String} (hb : o.bind f = .panic m) : o = .panic m ∨ f () = .panic m := by
  cases o with
  | ok u => exact Or.inr hb
  | err m => nomatch hb
  | panic m' => exact Or.inl hb
  | diverge => nomatch hb

theorem forEach_panics {α : Type} {f : α → Out Unit} {m : String} : ∀ {l : List α}, Out.forEach f l = .panic m → ∃ x ∈ l, f x = .panic m
  | [], hb => nomatch hb
  | x :: l, hb => by
    rcases bind_panics hb with h | h
    · exact ⟨x, by simp, h⟩
    · obtain ⟨y, hy, h⟩ := forEach_panics h
      exact ⟨y, by simp [hy], h⟩

theorem checkShape_panics (E : Ext) (rec : Addr → Out Unit) {h : St} (hc : Closed h) {a : Addr} (s : Shape)
    (hs : h.shapeAt a = some s) {m : String} (hb : checkShape E rec h s = .panic m) : ∃ y, ShapeEdge h s y ∧ rec y = .panic m := by
  have nb : ∀ {o : Out Unit} {P : Prop}, Decides o P → o = .panic m → False := fun hd hb => hd.not_bad (by rw [hb]; exact .panic)
  cases s with
  | integer f => exact (nb (integer_check_sound f E h) hb).elim
  | number f => exact (nb (number_check_sound f E h) hb).elim
  | string f => exact (nb (string_check_sound f E h) hb).elim
  | file f => exact (nb (file_check_sound f E h) hb).elim
  | boolean e => exact (nb (boolean_check_sound e E h) hb).elim
  | array f =>
    simp only [checkShape, arrayCheck] at hb
    split_ifs at hb
    · cases hi : f.items with
      | none => rw [hi] at hb; nomatch hb
      | some i => rw [hi] at hb; exact ⟨i, .items hi, hb⟩
  | object f =>
    simp only [checkShape, objectCheck] at hb
    by_cases h1 : boundsCrossed natLt f.minProperties f.maxProperties = true
    · rw [if_pos h1] at hb; nomatch hb
    · rw [if_neg h1] at hb
      rcases bind_panics hb with hb | hb
      · unfold checkPatternProperties at hb
        cases hf : f.patternProperties with
        | none => rw [hf] at hb; nomatch hb
        | some i =>
          rw [hf] at hb
          simp only at hb
          split_ifs at hb
          · obtain ⟨x, hx, hx'⟩ := forEach_panics hb
            exact ⟨_, .pattern (by rw [hf]; exact hx), hx'⟩
      · rcases bind_panics hb with hb | hb
        · unfold checkProperties at hb
          cases hf : f.properties with
          | none => rw [hf] at hb; nomatch hb
          | some i =>
            rw [hf] at hb
            simp only at hb
            rcases bind_panics hb with hb | hb
            · obtain ⟨x, hx, hx'⟩ := forEach_panics hb
              exact ⟨_, .property (by rw [hf]; exact hx), hx'⟩
            · unfold checkDiscriminator at hb
              cases hd : f.discriminator with
              | none => rw [hd] at hb; nomatch hb
              | some d =>
                rw [hd] at hb
                simp only at hb
                cases hg : OMap.get (h.props (some i)) d with
                | none => rw [hg] at hb; nomatch hb
                | some p =>
                  rw [hg] at hb
                  simp only at hb
                  obtain ⟨pre, post, hps, _⟩ := (OMap.get_some_iff _ _ _).1 hg
                  have hmem : (d, p) ∈ h.props f.properties := by rw [hf, hps]; simp
                  obtain ⟨s', hs'⟩ := hc.shape (hc.edge hs (.property hmem))
                  rw [hs'] at hb
                  simp only at hb
                  by_cases hsc : s'.isScalar = true
                  · simp only [hsc, Bool.not_true, Bool.false_eq_true, if_false] at hb
                    split at hb
                    · nomatch hb
                    · exact absurd (by rw [hb]; exact .panic) (scalar_validate_not_bad E hs' hsc _)
                  · simp only [hsc] at hb; nomatch hb
        · split_ifs at hb
  | union l e =>
    obtain ⟨x, hx, hx'⟩ := forEach_panics hb
    exact ⟨x, .member hx, hx'⟩
  | unknown f => nomatch hb
  | _ => nomatch hb

theorem check_calm (E : Ext) {h : St} (hc : Closed h) (n : Nat) {a : Addr} (ha : a < h.bases.length) (m : String) :
    check E h n a ≠ .panic m := by
  induction n generalizing a with
  | zero => simp [check]
  | succ n ih =>
    intro hb
    obtain ⟨s, hs⟩ := hc.shape ha
    simp only [check, hs] at hb
    obtain ⟨y, hy, h1⟩ := checkShape_panics E _ hc s hs hb
    exact ih (hc.edge hs hy) h1

theorem check_right (E : Ext) {h : St} (hc : Closed h) (hv : RuntimeDiscriminators h) (n : Nat) {a : Addr} (ha : a < h.bases.length) :
    Right (check E h n a) (Consistent E h a) := .of (check_sound E hv n a) (check_calm E hc n ha)

/-! ## Custom facets -/

/-- Parents are allocated. -/
def ParentsClosed (h : St) : Prop := ∀ a b, h.base a = some b → ∀ p ∈ h.slice b.inherits, p < h.bases.length

/-- What the loop over the first parents returns, whenever it returns. -/
theorem facetDefLoop_right {h : St} (hpc : ParentsClosed h) {own : OMap Property} (n : Nat) :
    ∀ (i : Option Nat), (∀ p ∈ h.slice i, p < h.bases.length) → ∀ (acc : OMap Property),
    (∀ acc', facetDefLoop h own n i acc = .ok acc' → ∃ l, ChainDefs h i l ∧ (∀ f ∈ l, OMap.get own f.name = none) ∧
      acc' = l.foldl (fun m f => OMap.set m f.name f) acc) ∧
    (∀ m, facetDefLoop h own n i acc = .err m → ∀ l, ChainDefs h i l → ¬ ∀ f ∈ l, OMap.get own f.name = none) ∧
    ∀ m, facetDefLoop h own n i acc ≠ .panic m := by
  induction n with
  | zero => intro i _ acc; simp [facetDefLoop]
  | succ n ih =>
    intro i hi acc
    cases hs : h.slice i with
    | nil =>
      simp only [facetDefLoop, hs]
      refine ⟨fun acc' ha => ⟨[], .root i hs, by simp, ?_⟩, by simp, by simp⟩
      injection ha with ha; exact ha.symm
    | cons p ps =>
      have hp : p < h.bases.length := hi p (by rw [hs]; simp)
      have hb : h.base p = some h.bases[p] := by simp [St.base, hp]
      simp only [facetDefLoop, hs, hb]
      generalize h.bases[p] = b at hb
      obtain ⟨h1, h2, h3⟩ := collectFacetDefs_spec own (h.props b.facetDefs) acc
      rcases h3 with ⟨acc', ha⟩ | ⟨m, hm⟩
      · obtain ⟨i1, i2⟩ := h1 acc' ha
        obtain ⟨j1, j2, j3⟩ := ih b.inherits (hpc p b hb) acc'
        rw [ha]
        simp only [Out.bind]
        refine ⟨fun acc'' hk => ?_, fun m hm l hl => ?_, j3⟩
        · obtain ⟨l, k1, k2, k3⟩ := j1 acc'' hk
          refine ⟨_, .parent i p ps b l hs hb k1, ?_, ?_⟩
          · intro f hf
            rcases List.mem_append.1 hf with h5 | h5
            · exact i1 f h5
            · exact k2 f h5
          · rw [List.foldl_append, ← i2]; exact k3
        · intro hall
          cases hl with
          | root _ hs' => rw [hs] at hs'; cases hs'
          | parent _ p' ps' b' l' hs' hb' hc' =>
            rw [hs] at hs'; cases hs'
            rw [hb] at hb'; cases hb'
            exact j2 m hm l' hc' fun f hf => hall f (List.mem_append_right _ hf)
      · obtain ⟨f, hf, hg⟩ := h2 m hm
        rw [hm]
        simp only [Out.bind]
        refine ⟨by simp, fun m' _ l hl hall => ?_, by simp⟩
        cases hl with
        | root _ hs' => rw [hs] at hs'; cases hs'
        | parent _ p' ps' b' l' hs' hb' hc' =>
          rw [hs] at hs'; cases hs'
          rw [hb] at hb'; cases hb'
          exact hg (hall f (List.mem_append_left _ hf))

theorem facets_right (E : Ext) {h : St} (hc : Closed h) (hf : FacetsClosed h) (hpc : ParentsClosed h)
    {ord : OMap Property → OMap Property} (ho : ∀ l, (ord l).Perm l) (n : Nat) {a : Addr} {b : Base} (hb : h.base a = some b)
    (hr : RuntimeBase h b) : Right (validateShapeFacets E h ord n b) (FacetsOK E h b) := by
  obtain ⟨h1, h2, h3⟩ := facetDefLoop_right hpc (own := h.props b.facetDefs) n b.inherits (hpc a b hb) []
  unfold validateShapeFacets
  cases hd : facetDefLoop h (h.props b.facetDefs) n b.inherits [] with
  | diverge => exact .diverge
  | panic m => exact absurd hd (h3 m)
  | err m =>
    refine .fail ?_
    rintro ⟨l, hl, hR⟩
    exact h2 m hd l hl fun f hf' => ownMissing_iff.2 (hR.fresh f hf')
  | ok defs =>
    obtain ⟨l, hl, hfresh, rfl⟩ := h1 defs hd
    change Right (Out.bind (.ok (defsOf l)) _) _
    simp only [Out.bind]
    rw [facetsOK_iff hl]
    have hl1 : ∀ kf : String × Property, kf ∈ ord (defsOf l) ↔ DeclaresFacet l kf.1 kf.2 := by
      intro kf
      rw [(ho (defsOf l)).mem_iff]
      exact mem_defsOf
    have s1 : Right (Out.forEach (validateFacet E h n (h.facetMap b.facets)) (ord (defsOf l)))
        (∀ kf ∈ ord (defsOf l), (kf.2.required = true → ∃ v, (kf.1, v) ∈ h.facetMap b.facets) ∧
          ∀ v, FacetValue (h.facetMap b.facets) kf.1 v → Valid E h kf.2.base v) := by
      refine Right.forEach fun kf hkf => ?_
      have hd := (hl1 kf).1 hkf
      cases hv : OMap.get (h.facetMap b.facets) kf.1 with
      | none =>
        simp only [validateFacet, hv]
        have hm := facetMissing_iff.1 hv
        have hno : ∀ v, ¬ FacetValue (h.facetMap b.facets) kf.1 v := fun v hv' => hm v hv'.mem
        by_cases hq : kf.2.required = true
        · rw [if_pos hq]
          refine .fail ?_
          rintro ⟨h1, _⟩
          obtain ⟨v, hv'⟩ := h1 hq
          exact hm v hv'
        · rw [if_neg hq]
          exact Right.nil.congr (by simp only [true_iff]; exact ⟨fun h => absurd h hq, fun v hv' => absurd hv' (hno v)⟩)
      | some v =>
        simp only [validateFacet, hv]
        have hfv := facetValue_iff.1 hv
        have hb : kf.2.base < h.bases.length := by
          obtain ⟨_, pre, post, rfl, _⟩ := hd
          exact chainDefs_closed hf hl _ (by simp)
        refine (validate_right E hc n hb (hr.facets _ hfv.mem)).congr ?_
        constructor
        · intro hV
          refine ⟨fun _ => ⟨v, hfv.mem⟩, fun v' hv' => ?_⟩
          have := facetValue_iff.2 hv'
          rw [hv] at this; injection this with this; subst this; exact hV
        · intro hh; exact hh.2 v hfv
    have s2 : Right (Out.forEach (knownFacet (defsOf l)) (h.facetMap b.facets))
        (∀ e ∈ h.facetMap b.facets, ∃ f ∈ l, f.name = e.1) := by
      refine Right.forEach fun e _ => ?_
      unfold knownFacet
      by_cases hk : (OMap.get (defsOf l) e.1).isSome = true
      · rw [if_pos hk]; exact Right.nil.congr (by simp only [true_iff]; exact defsOf_get.1 hk)
      · rw [if_neg hk]; exact .fail fun h => hk (defsOf_get.2 h)
    refine (Right.bind s1 fun _ => s2).congr ?_
    constructor
    · rintro ⟨h1, h2⟩
      refine ⟨?_, ?_, ?_, h2⟩
      · intro f hf' e he; exact ownMissing_iff.1 (hfresh f hf') e he
      · intro k f hd hq; exact (h1 (k, f) ((hl1 _).2 hd)).1 hq
      · intro k f v hd hv; exact (h1 (k, f) ((hl1 _).2 hd)).2 v hv
    · intro hR
      refine ⟨?_, hR.declared⟩
      intro kf hkf
      exact ⟨hR.required _ _ ((hl1 kf).1 hkf), fun v hv => hR.typed _ _ v ((hl1 kf).1 hkf) hv⟩

/-! ## Examples -/

theorem given_right (E : Ext) {h : St} (hc : Closed h) (n : Nat) {a : Addr} (ha : a < h.bases.length) {v : Option GoVal}
    (hv : ∀ x, v = some x → GoValue x) : Right (validateGiven E h n a v) (∀ x, v = some x → Valid E h a x) := by
  cases v with
  | none => exact Right.nil.congr (by simp)
  | some x => exact (validate_right E hc n ha (hv x rfl)).congr (by simp)

theorem examples_right (E : Ext) {h : St} (hc : Closed h) (n : Nat) {a : Addr} (ha : a < h.bases.length) {b : Base}
    (hr : RuntimeBase h b) : Right (validateExamples E h n a b) (ExamplesOK E h a b) := by
  have s1 := given_right E hc n ha (v := b.example_.map (·.data)) (by
    intro x hx; obtain ⟨ex, h1, rfl⟩ := Option.map_eq_some_iff.1 hx; exact hr.example ex h1)
  have hl : ∀ e, e ∈ (b.examples.bind (·.map)).getD [] ↔ ∃ exs m, b.examples = some exs ∧ exs.map = some m ∧ e ∈ m := by
    intro e
    cases hb : b.examples with
    | none => simp
    | some exs =>
      simp only [Option.bind_some]
      cases hm : exs.map with
      | none => simp [hm]
      | some m => simp [hm]
  have s2 : Right (Out.forEach (fun (kv : String × Example) => validate E h n a kv.2.data) ((b.examples.bind (·.map)).getD []))
      (∀ e ∈ (b.examples.bind (·.map)).getD [], Valid E h a e.2.data) := by
    refine Right.forEach fun e he => ?_
    obtain ⟨exs, m, h1, h2, h3⟩ := (hl e).1 he
    exact validate_right E hc n ha (hr.examples exs m h1 h2 e h3)
  have s3 := given_right E hc n ha (v := b.default) hr.default
  refine (Right.bind s1 fun _ => Right.bind s2 fun _ => s3).congr ?_
  constructor
  · rintro ⟨h1, h2, h3⟩
    refine ⟨fun ex he => h1 _ (by simp [he]), fun exs m he hm e hem => h2 e ((hl e).2 ⟨exs, m, he, hm, hem⟩), h3⟩
  · rintro ⟨h1, h2, h3⟩
    refine ⟨?_, fun e he => ?_, h3⟩
    · intro x hx; obtain ⟨ex, h4, rfl⟩ := Option.map_eq_some_iff.1 hx; exact h1 ex h4
    · obtain ⟨exs, m, h4, h5, h6⟩ := (hl e).1 he; exact h2 exs m h4 h5 e h6

/-! ## Components -/

theorem components_right {h : St} {s : Option Shape} {rec : Addr → Out Unit} {P : Addr → Prop}
    (hr : ∀ s', s = some s' → ∀ y, ShapeEdge h s' y → Right (rec y) (P y)) :
    Right (validateComponents rec h s) (∀ s', s = some s' → ∀ y, ShapeEdge h s' y → P y) := by
  cases s with
  | none => exact Right.nil.congr (by simp)
  | some s =>
    cases s with
    | object f =>
      have s1 := Right.forEach (f := fun (kp : String × Property) => rec kp.2.base) (P := fun kp => P kp.2.base)
        (l := h.props f.properties) fun kp hkp => hr _ rfl _ (.property hkp)
      have s2 := Right.forEach (f := fun (kp : String × PatternProperty) => rec kp.2.base) (P := fun kp => P kp.2.base)
        (l := h.patProps f.patternProperties) fun kp hkp => hr _ rfl _ (.pattern hkp)
      refine (Right.bind s1 fun _ => s2).congr ?_
      constructor
      · rintro ⟨h1, h2⟩ s' hs y hy
        injection hs with hs; subst hs
        cases hy with
        | property hp => exact h1 _ hp
        | pattern hp => exact h2 _ hp
      · intro h1; exact ⟨fun kp hkp => h1 _ rfl _ (.property hkp), fun kp hkp => h1 _ rfl _ (.pattern hkp)⟩
    | array f =>
      cases hi : f.items with
      | none =>
        simp only [validateComponents, hi]
        refine Right.nil.congr ?_
        simp only [true_iff]
        intro s' hs y hy; injection hs with hs; subst hs; cases hy with | items h1 => rw [hi] at h1; cases h1
      | some i =>
        simp only [validateComponents, hi]
        refine (hr _ rfl i (.items hi)).congr ?_
        constructor
        · intro hP s' hs y hy
          injection hs with hs; subst hs
          cases hy with | items h1 => rw [hi] at h1; cases h1; exact hP
        · intro h1; exact h1 _ rfl i (.items hi)
    | union l e =>
      refine (Right.forEach (f := rec) fun m hm => hr _ rfl m (.member hm)).congr ?_
      constructor
      · intro h1 s' hs y hy
        injection hs with hs; subst hs
        cases hy with | member hm => exact h1 _ hm
      · intro h1 m hm; exact h1 _ rfl m (.member hm)
    | _ =>
      refine Right.nil.congr ?_
      simp only [true_iff]
      intro s' hs y hy; injection hs with hs; subst hs; cases hy

theorem commons_right (E : Ext) {h : St} (hc : Closed h) (hf : FacetsClosed h) (hpc : ParentsClosed h) (hrt : RuntimeValues h)
    {ord : OMap Property → OMap Property} (ho : ∀ l, (ord l).Perm l) (n : Nat) {a : Addr} (ha : a < h.bases.length) :
    Right (validateCommons E h ord n a) (CommonsOK E h a) := by
  induction n generalizing a with
  | zero => exact .diverge
  | succ n ih =>
    obtain ⟨b, hb⟩ : ∃ b, h.base a = some b := ⟨h.bases[a], by simp [St.base, ha]⟩
    have hlt : ∀ y, Component h a y → y < h.bases.length := by
      rintro y ⟨b', hb', h1⟩
      rw [hb] at hb'; cases hb'
      rcases h1 with ⟨s, hs, he⟩ | ⟨e, he, rfl⟩
      · exact hc.edge (a := a) (by simp [St.shapeAt, hb, hs]) he
      · exact hf a b hb e he
    simp only [validateCommons, hb]
    have s1 := facets_right E hc hf hpc ho n hb (hrt a b hb)
    have s2 := examples_right E hc n ha (hrt a b hb)
    have s3 := components_right (h := h) (s := b.shape) (rec := validateCommons E h ord n)
      (P := CommonsOK E h) fun s hs y hy => ih (hlt y ⟨b, hb, Or.inl ⟨s, hs, hy⟩⟩)
    have s4 := Right.forEach (f := fun (kp : String × Property) => validateCommons E h ord n kp.2.base)
      (P := fun kp => CommonsOK E h kp.2.base) (l := h.props b.facetDefs)
      fun kp hkp => ih (hlt _ ⟨b, hb, Or.inr ⟨kp, hkp, rfl⟩⟩)
    refine (Right.bind s1 fun _ => Right.bind s2 fun _ => Right.bind s3 fun _ => s4).congr ?_
    rw [commonsOK_iff hb]
    constructor
    · rintro ⟨h1, h2, h3, h4⟩
      refine ⟨h1, h2, ?_⟩
      rintro y ⟨b', hb', h5⟩
      rw [hb] at hb'; cases hb'
      rcases h5 with ⟨s, hs, he⟩ | ⟨e, he, rfl⟩
      · exact h3 s hs y he
      · exact h4 e he
    · rintro ⟨h1, h2, h3⟩
      exact ⟨h1, h2, fun s hs y hy => h3 y ⟨b, hb, Or.inl ⟨s, hs, hy⟩⟩, fun e he => h3 _ ⟨b, hb, Or.inr ⟨e, he, rfl⟩⟩⟩

/-- A whole type definition. -/
theorem type_right (E : Ext) {h : St} (hc : Closed h) (hv : RuntimeDiscriminators h) (hf : FacetsClosed h) (hpc : ParentsClosed h)
    (hrt : RuntimeValues h) {ord : OMap Property → OMap Property} (ho : ∀ l, (ord l).Perm l) (n : Nat) {a : Addr}
    (ha : a < h.bases.length) :
    Right ((check E h n a).bind fun _ => validateCommons E h ord n a) (Consistent E h a ∧ CommonsOK E h a) :=
  Right.bind (check_right E hc hv n ha) fun _ => commons_right E hc hf hpc hrt ho n ha

end GoRaml
