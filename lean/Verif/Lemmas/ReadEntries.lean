import Verif.Lemmas.ReadHead

/-!
# Decoding fidelity: the entries of a type declaration
-/

namespace GoRaml.Read

open GoRaml GoRaml.Spec GoRaml.Load

section
variable {E : Env} {c : Calls} {x rg rg' : Region} {s1 s s' : St} {a : Addr} {b : Base} {name loc : String} {lo : Nat} {es : List (String × YNode)}

/-- The keys `Heading` looks at. -/
def headNames : List String := ["displayName", "description", "required", "default", "example", "examples", "facets"]

theorem Heading.skip {R : YNode → String → Addr → Prop} {k : String} {v : YNode} (h : Heading E s loc R es b) (hk : k ∉ headNames)
    (ha : annotationKey k = false) : Heading E s loc R (es ++ [(k, v)]) b where
  displayName := reads_skip hk h.displayName (by decide)
  description := reads_skip hk h.description (by decide)
  required := reads_skip hk h.required (by decide)
  default := reads_skip hk h.default (by decide)
  example_ := reads_skip hk h.example_ (by decide)
  examples := reads_skip hk h.examples (by decide)
  facetDefs := reads_skip hk h.facetDefs (by decide)
  annotations := by
    rw [List.filter_append]
    simpa [ha] using h.annotations

theorem ann_skip {k : String} {v : YNode} {m : OMap Nat} (ha : annotationKey k = false) (h : Lists (AnnotationReads E s loc) (es.filter fun e => annotationKey e.1) m) :
    Lists (AnnotationReads E s loc) ((es ++ [(k, v)]).filter fun e => annotationKey e.1) m := by
  rw [List.filter_append]
  simpa [ha] using h

/-- While the entries of the declaration of `a` are read: `es` are those read so far. -/
structure Head (E : Env) (s1 : St) (a : Addr) (name loc : String) (lo : Nat) (es : List (String × YNode)) (rg : Region) (s : St) (b : Base) : Prop where
  inv : Inv E (atBase a) s1 rg s
  base : s.base a = some b
  name : b.name = name
  location : b.location = loc
  shape : b.shape = none
  link : b.link = none
  inherits : b.inherits = none
  fmap : s.fmaps[a]? = some []
  defs : ∀ i, b.facetDefs = some i → ¬ rg.p i ∧ lo ≤ i ∧ i < s.pmaps.length
  head : Heading E s loc (D E False rg s loc) es b

theorem Head.lt (h : Head E s1 a name loc lo es rg s b) : a < s.bases.length := lt_of_get h.base

theorem Head.call (h : Head E s1 a name loc lo es rg s b) (hc : Call E s s') : Head E s1 a name loc lo es (rg.or (between s s')) s' b where
  inv := h.inv.call hc
  base := (hc.same h.inv.tied h.lt).base.trans h.base
  name := h.name
  location := h.location
  shape := h.shape
  link := h.link
  inherits := h.inherits
  fmap := (hc.same h.inv.tied h.lt).fmap.trans h.fmap
  defs := fun i hi => ⟨fun hr => hr.elim (h.defs i hi).1 fun hr => absurd hr.1 (Nat.not_le.2 (h.defs i hi).2.2), (h.defs i hi).2.1,
    Nat.lt_of_lt_of_le (h.defs i hi).2.2 hc.chg.pmaps⟩
  head := Heading.carry (chg_carry hc.chg (Nat.le_of_eq h.inv.tied.len.symm) Region.apart_none Region.le_left)
    (props_chg hc.chg fun i hi => ⟨(h.defs i hi).2.2, id⟩) hc.chg.sameExts h.head

/-- A change of the base that keeps what must stay. -/
structure Stays (b b' : Base) : Prop where
  name : b'.name = b.name
  location : b'.location = b.location
  shape : b'.shape = b.shape
  link : b'.link = b.link
  inherits : b'.inherits = b.inherits
  facets : b'.facets = b.facets

theorem Head.upd (ha : a < s1.bases.length) (h : Head E s1 a name loc lo es rg s b) (g : Base → Base) (hg : ∀ b, Stays b (g b))
    (hd : ∀ i, (g b).facetDefs = some i → ¬ rg.p i ∧ lo ≤ i ∧ i < s.pmaps.length) {es' : List (String × YNode)}
    (hh : Heading E s loc (D E False rg s loc) es' (g b)) :
    Head E s1 a name loc lo es' rg { s with bases := s.bases.modify a g } (g b) := by
  have hc := chg_updBase (s := s) a g
  have hap := not_in_region ha h.inv.le
  have hs := hg b
  refine ⟨h.inv.write hc (h.inv.tied.updBase fun b0 hb0 => ⟨(hg b0).facets, fun ⟨f, hf⟩ => ?_⟩) rfl rfl hap (Region.Le.rfl.on _), base_modify_eq h.base,
    hs.name.trans h.name, hs.location.trans h.location, hs.shape.trans h.shape, hs.link.trans h.link, hs.inherits.trans h.inherits, h.fmap, hd,
    Heading.carry (chg_carry hc (Nat.le_of_eq h.inv.tied.len.symm) hap .rfl) rfl (SameExts.refl _) hh⟩
  rw [h.base] at hb0; cases hb0
  rw [hs.shape, h.shape] at hf; cases hf

/-! ## Facet declarations -/

/-- While the declarations of facets are read. -/
structure DefsAt (E : Env) (s1 : St) (a : Addr) (loc : String) (lo i : Nat) (sA : St) (pre : List (String × YNode)) (rg : Region) (s : St) (b : Base) : Prop where
  inv : Inv E (atBase a) s1 rg s
  base : s.base a = some b
  fmap : s.fmaps[a]? = some []
  out : ¬ rg.p i ∧ lo ≤ i ∧ s1.pmaps.length ≤ i ∧ i < s.pmaps.length
  exts : SameExts sA s
  lists : Lists (PropertyReads s (D E False rg s loc)) pre (s.props (some i))

theorem decodeFacetDefs_reads (hg : Good E c) {i : Nat} {sA : St} : ∀ (l : List YNode) {rg : Region} {s s' : St} {pre : List (String × YNode)},
    DefsAt E s1 a loc lo i sA pre rg s b → decodeFacetDefs E c loc i l s = (.ok (), s') →
    ∃ rg', DefsAt E s1 a loc lo i sA (pre ++ entriesOf l) rg' s' b
  | [], rg, s, s', pre, h, hr => by
    obtain ⟨-, rfl⟩ := M.ret_ok.1 hr
    exact ⟨rg, by simpa [entriesOf] using h⟩
  | [_], rg, s, s', pre, h, hr => by cases hr
  | k :: v :: rest, rg, s, s', pre, h, hr => by
    obtain ⟨t, s2, r1, r2⟩ := M.bind_ok.1 hr
    obtain ⟨hcall, hd⟩ := hg.shape h.inv.tied r1
    obtain ⟨tb, s3, r3, r4⟩ := M.bind_ok.1 r2
    obtain ⟨rfl, htb⟩ := getBase_ok r3
    obtain ⟨u, s4, r5, r6⟩ := M.bind_ok.1 r4
    obtain ⟨n1, n2⟩ := nameProperty_reads k.value t tb.required
    generalize nameProperty k.value (chompImplicitOptional k.value).1 (chompImplicitOptional k.value).2 t tb.required = p at r5 n1 n2
    unfold Heap.setProp at r5
    cases r5
    have hsame := hcall.same h.inv.tied (lt_of_get h.base)
    have hinv := h.inv.call hcall
    have hi : ¬ (rg.or (between s s3)).p i := fun hr => hr.elim h.out.1 fun hr => absurd hr.1 (Nat.not_le.2 h.out.2.2.2)
    have hlt := Nat.lt_of_lt_of_le h.out.2.2.2 hcall.chg.pmaps
    have hc := chg_setProp (s := s3) i fun m => OMap.set m p.name p
    have hap : (rg.or (between s s3)).Apart (atProps i) := ⟨fun _ _ h => h, fun z hz he => hi (he ▸ hz), fun _ _ h => h⟩
    have hcar1 := chg_carry (loc := loc) (E := E) hcall.chg (Nat.le_of_eq h.inv.tied.len.symm) Region.apart_none (Region.le_left (r := rg) (r' := between s s3))
    have hcar2 := chg_carry (loc := loc) (E := E) hc (Nat.le_of_eq hinv.tied.len.symm) hap .rfl
    obtain ⟨rg', h'⟩ := decodeFacetDefs_reads hg rest (rg := rg.or (between s s3)) (pre := pre ++ [(k.value, v)])
      ⟨hinv.write hc (hinv.tied.same rfl rfl rfl (List.prefix_refl _) rfl) rfl rfl hap
        ⟨fun _ _ h => h.elim, fun z hz he => absurd hz (Nat.not_lt.2 (he ▸ h.out.2.2.1)), fun _ _ h => h.elim⟩, hsame.base.trans h.base, hsame.fmap.trans h.fmap,
        ⟨hi, h.out.2.1, h.out.2.2.1, by simpa using hlt⟩, h.exts.trans hcall.chg.sameExts, by
          rw [props_modify hlt]
          refine Lists.snoc ?_ ⟨rfl, ?_, tb, ?_, n2⟩
          · rw [props_chg (i := some i) hcall.chg fun j hj => by cases hj; exact ⟨h.out.2.2.2, id⟩]
            exact Lists.mono h.lists fun e x hx => PropertyReads.carry hcar2 (PropertyReads.carry hcar1 hx)
          · rw [n1]; exact (hcar2 _ _ _ (hd.mono id Region.le_right)).1
          · rw [n1]; exact htb⟩ r6
    exact ⟨rg', by simpa [entriesOf] using h'⟩

theorem decodeExamples_reads {v : YNode} (ha : a < s1.bases.length) (h : Head E s1 a name loc lo es rg s b) (hr : decodeExamples E a loc v s = (.ok (), s')) :
    ∃ rg' b', Head E s1 a name loc lo (es ++ [("examples", v)]) rg' s' b' := by
  unfold decodeExamples at hr
  obtain ⟨b0, s2, r1, r2⟩ := M.bind_ok.1 hr
  obtain ⟨rfl, hb0⟩ := getBase_ok r1
  split at r2
  · cases r2
  have key : ∀ {s3 : St} (exs : Examples) {rg3 : Region}, Head E s1 a name loc lo es rg3 s3 b → ExamplesRead E loc v exs →
      Head E s1 a name loc lo (es ++ [("examples", v)]) rg3 { s3 with bases := s3.bases.modify a fun b => { b with examples := some exs } } { b with examples := some exs } := by
    intro s3 exs rg3 h3 he
    refine h3.upd ha (fun b => { b with examples := some exs }) (fun b => ⟨rfl, rfl, rfl, rfl, rfl, rfl⟩) h3.defs ?_
    exact ⟨reads_there (by decide) h3.head.displayName, reads_there (by decide) h3.head.description, reads_there (by decide) h3.head.required,
      reads_there (by decide) h3.head.default, reads_there (by decide) h3.head.example_, reads_here ⟨exs, rfl, he⟩, reads_there (by decide) h3.head.facetDefs,
      ann_skip (by decide) h3.head.annotations⟩
  split at r2
  · rename_i hinc
    obtain ⟨i, s3, r3, r4⟩ := M.bind_ok.1 r2
    obtain ⟨hcall, _, m, hm, hf⟩ := parseNamedExample_reads h.inv.tied r3
    unfold Heap.updBase at r4
    cases r4
    refine ⟨_, _, key _ (h.call hcall) ?_⟩
    rw [ExamplesRead, if_pos hinc]
    exact ⟨rfl, m, hm, hf⟩
  · rename_i hinc
    split at r2
    · cases r2
    obtain ⟨m, s3, r3, r4⟩ := M.bind_ok.1 r2
    obtain ⟨he, hm⟩ := namedExamples_reads r3
    unfold Heap.updBase at r4
    cases r4
    refine ⟨_, _, key _ (h.call (he.call h.inv.tied)) ?_⟩
    rw [ExamplesRead, if_neg hinc]
    exact ⟨rfl, m, rfl, hm⟩

/-! ## One entry -/

theorem isHeadKey_of {k : String} (h : k ∈ ["type", "displayName", "description", "required", "facets", "example", "examples", "default", "allowedTargets"]) :
    isHeadKey k = true := by simp only [isHeadKey, decide_eq_true h, Bool.true_or]

theorem orErr_ok {α : Type} {msg : String} {o : Option α} {y : α} (h : orErr msg o = .ok y) : o = some y := by
  cases o with
  | none => cases h
  | some z => cases h; rfl

theorem decodeValueNode_reads (hg : Good E c) (ha : a < s1.bases.length) (hlo : lo ≤ s1.pmaps.length) {k v : YNode} {r : Option YNode × List YNode}
    (h : Head E s1 a name loc lo es rg s b) (hr : decodeValueNode E c a loc k v s = (.ok r, s')) :
    (∃ rg' b', Head E s1 a name loc lo (es ++ [(k.value, v)]) rg' s' b') ∧ r.1 = (if k.value = "type" then some v else none) ∧
      r.2 = if isHeadKey k.value then [] else [k, v] := by
  rw [decodeValueNode] at hr
  by_cases hk : k.value = "type"
  · rw [if_pos hk] at hr
    obtain ⟨rfl, rfl⟩ := M.ret_ok.1 hr
    exact ⟨⟨rg, b, { h with head := Heading.skip h.head (by rw [hk]; decide) (by rw [hk]; decide) }⟩, by rw [if_pos hk],
      by rw [if_pos (isHeadKey_of (by rw [hk]; decide))]⟩
  rw [if_neg hk] at hr
  have hty := hk
  clear hk
  rw [if_neg hty]
  by_cases hk : k.value = "displayName"
  · rw [if_pos hk] at hr
    obtain ⟨x, s2, r1, r2⟩ := M.bind_ok.1 hr
    obtain ⟨r3, rfl⟩ := M.lift_ok.1 r1
    obtain ⟨_, s3, r4, r5⟩ := M.bind_ok.1 r2
    obtain ⟨rfl, rfl⟩ := M.ret_ok.1 r5
    unfold Heap.updBase at r4
    cases r4
    refine ⟨⟨rg, _, h.upd ha (fun b => { b with displayName := x }) (fun b => ⟨rfl, rfl, rfl, rfl, rfl, rfl⟩) h.defs ?_⟩, rfl,
      by rw [if_pos (isHeadKey_of (by rw [hk]; decide))]⟩
    rw [hk]
    exact ⟨reads_here (orErr_ok r3), reads_there (by decide) h.head.description, reads_there (by decide) h.head.required, reads_there (by decide) h.head.default,
      reads_there (by decide) h.head.example_, reads_there (by decide) h.head.examples, reads_there (by decide) h.head.facetDefs, ann_skip (by decide) h.head.annotations⟩
  rw [if_neg hk] at hr
  have hk1 := hk
  clear hk
  by_cases hk : k.value = "description"
  · rw [if_pos hk] at hr
    obtain ⟨x, s2, r1, r2⟩ := M.bind_ok.1 hr
    obtain ⟨r3, rfl⟩ := M.lift_ok.1 r1
    obtain ⟨_, s3, r4, r5⟩ := M.bind_ok.1 r2
    obtain ⟨rfl, rfl⟩ := M.ret_ok.1 r5
    unfold Heap.updBase at r4
    cases r4
    refine ⟨⟨rg, _, h.upd ha (fun b => { b with description := x }) (fun b => ⟨rfl, rfl, rfl, rfl, rfl, rfl⟩) h.defs ?_⟩, rfl,
      by rw [if_pos (isHeadKey_of (by rw [hk]; decide))]⟩
    rw [hk]
    exact ⟨reads_there (by decide) h.head.displayName, reads_here (orErr_ok r3), reads_there (by decide) h.head.required, reads_there (by decide) h.head.default,
      reads_there (by decide) h.head.example_, reads_there (by decide) h.head.examples, reads_there (by decide) h.head.facetDefs, ann_skip (by decide) h.head.annotations⟩
  rw [if_neg hk] at hr
  have hk2 := hk
  clear hk
  by_cases hk : k.value = "required"
  · rw [if_pos hk] at hr
    obtain ⟨x, s2, r1, r2⟩ := M.bind_ok.1 hr
    obtain ⟨r3, rfl⟩ := M.lift_ok.1 r1
    obtain ⟨_, s3, r4, r5⟩ := M.bind_ok.1 r2
    obtain ⟨rfl, rfl⟩ := M.ret_ok.1 r5
    unfold Heap.updBase at r4
    cases r4
    refine ⟨⟨rg, _, h.upd ha (fun b => { b with required := x }) (fun b => ⟨rfl, rfl, rfl, rfl, rfl, rfl⟩) h.defs ?_⟩, rfl,
      by rw [if_pos (isHeadKey_of (by rw [hk]; decide))]⟩
    rw [hk]
    exact ⟨reads_there (by decide) h.head.displayName, reads_there (by decide) h.head.description, reads_here (orErr_ok r3), reads_there (by decide) h.head.default,
      reads_there (by decide) h.head.example_, reads_there (by decide) h.head.examples, reads_there (by decide) h.head.facetDefs, ann_skip (by decide) h.head.annotations⟩
  rw [if_neg hk] at hr
  have hk3 := hk
  clear hk
  by_cases hk : k.value = "facets"
  · rw [if_pos hk] at hr
    obtain ⟨i, s2, r1, r2⟩ := M.bind_ok.1 hr
    unfold Heap.newProps at r1
    cases r1
    obtain ⟨_, s3, r4, r5⟩ := M.bind_ok.1 r2
    unfold Heap.updBase at r4
    cases r4
    obtain ⟨_, s4, r6, r7⟩ := M.bind_ok.1 r5
    obtain ⟨rfl, rfl⟩ := M.ret_ok.1 r7
    have hc := chg_newProps (s := s) []
    have hc2 := chg_updBase (s := { s with pmaps := s.pmaps ++ [[]] }) a fun b => { b with facetDefs := some s.pmaps.length }
    have hap := not_in_region ha h.inv.le
    have hinv := h.inv.write hc (h.inv.tied.same rfl rfl rfl (List.prefix_refl _) rfl) rfl rfl Region.apart_none (Region.none_le.on _)
    have hinv2 := hinv.write hc2 (hinv.tied.updBase fun b0 hb0 => ⟨rfl, fun ⟨f, hf⟩ => by
      have hb0 : s.base a = some b0 := hb0
      rw [h.base] at hb0; cases hb0
      simp only [h.shape] at hf; cases hf⟩) rfl rfl hap (Region.Le.rfl.on _)
    obtain ⟨rg', h'⟩ := decodeFacetDefs_reads (sA := s) (lo := lo) hg v.content ⟨hinv2, base_modify_eq (s := { s with pmaps := s.pmaps ++ [[]] }) h.base, h.fmap,
      ⟨fun hr => Nat.lt_irrefl _ (h.inv.le.p _ hr).2, hlo.trans h.inv.chg.pmaps, h.inv.chg.pmaps, by simp⟩, SameExts.refl _,
      by simpa [St.props] using lists_nil⟩ r6
    rw [List.nil_append] at h'
    refine ⟨⟨rg', _, h'.inv, h'.base, h.name, h.location, h.shape, h.link, h.inherits, h'.fmap, fun i hi => ?_, ?_⟩, rfl,
      by rw [if_pos (isHeadKey_of (by rw [hk]; decide))]⟩
    · cases hi; exact ⟨h'.out.1, h'.out.2.1, h'.out.2.2.2⟩
    · rw [hk]
      exact ⟨reads_there (by decide) h.head.displayName, reads_there (by decide) h.head.description, reads_there (by decide) h.head.required,
        reads_there (by decide) h.head.default, reads_there (by decide) h.head.example_, reads_there (by decide) h.head.examples, reads_here h'.lists,
        ann_skip (by decide) (Lists.mono h.head.annotations fun e x hx => AnnotationReads.carry h'.exts hx)⟩
  rw [if_neg hk] at hr
  have hk4 := hk
  clear hk
  by_cases hk : k.value = "example"
  · rw [if_pos hk] at hr
    obtain ⟨b0, s2, r1, r2⟩ := M.bind_ok.1 hr
    obtain ⟨rfl, hb0⟩ := getBase_ok r1
    split at r2
    · cases r2
    obtain ⟨ex, s3, r3, r4⟩ := M.bind_ok.1 r2
    obtain ⟨he, hex⟩ := makeExample_reads r3
    obtain ⟨_, s4, r5, r6⟩ := M.bind_ok.1 r4
    obtain ⟨rfl, rfl⟩ := M.ret_ok.1 r6
    unfold Heap.updBase at r5
    cases r5
    have h3 := h.call (he.call h.inv.tied)
    refine ⟨⟨_, _, h3.upd ha (fun b => { b with example_ := some ex }) (fun b => ⟨rfl, rfl, rfl, rfl, rfl, rfl⟩) h3.defs ?_⟩, rfl,
      by rw [if_pos (isHeadKey_of (by rw [hk]; decide))]⟩
    rw [hk]
    exact ⟨reads_there (by decide) h3.head.displayName, reads_there (by decide) h3.head.description, reads_there (by decide) h3.head.required,
      reads_there (by decide) h3.head.default, reads_here ⟨ex, rfl, hex⟩, reads_there (by decide) h3.head.examples, reads_there (by decide) h3.head.facetDefs,
      ann_skip (by decide) h3.head.annotations⟩
  rw [if_neg hk] at hr
  have hk5 := hk
  clear hk
  by_cases hk : k.value = "examples"
  · rw [if_pos hk] at hr
    obtain ⟨_, s2, r1, r2⟩ := M.bind_ok.1 hr
    obtain ⟨rfl, rfl⟩ := M.ret_ok.1 r2
    rw [hk]
    exact ⟨decodeExamples_reads ha h r1, rfl, by rw [if_pos (isHeadKey_of (by decide))]⟩
  rw [if_neg hk] at hr
  have hk6 := hk
  clear hk
  by_cases hk : k.value = "default"
  · rw [if_pos hk] at hr
    obtain ⟨x, s2, r1, r2⟩ := M.bind_ok.1 hr
    obtain ⟨r3, rfl⟩ := M.lift_ok.1 r1
    obtain ⟨_, s3, r4, r5⟩ := M.bind_ok.1 r2
    obtain ⟨rfl, rfl⟩ := M.ret_ok.1 r5
    unfold Heap.updBase at r4
    cases r4
    refine ⟨⟨rg, _, h.upd ha (fun b => { b with default := some x }) (fun b => ⟨rfl, rfl, rfl, rfl, rfl, rfl⟩) h.defs ?_⟩, rfl,
      by rw [if_pos (isHeadKey_of (by rw [hk]; decide))]⟩
    rw [hk]
    exact ⟨reads_there (by decide) h.head.displayName, reads_there (by decide) h.head.description, reads_there (by decide) h.head.required, reads_here ⟨x, rfl, r3⟩,
      reads_there (by decide) h.head.example_, reads_there (by decide) h.head.examples, reads_there (by decide) h.head.facetDefs, ann_skip (by decide) h.head.annotations⟩
  rw [if_neg hk] at hr
  have hk7 := hk
  clear hk
  by_cases hk : k.value = "allowedTargets"
  · rw [if_pos hk] at hr
    obtain ⟨rfl, rfl⟩ := M.ret_ok.1 hr
    exact ⟨⟨rg, b, { h with head := Heading.skip h.head (by rw [hk]; decide) (by rw [hk]; decide) }⟩, rfl,
      by rw [if_pos (isHeadKey_of (by rw [hk]; decide))]⟩
  rw [if_neg hk] at hr
  have hk8 := hk
  clear hk
  have hnames : k.value ∉ headNames := by
    simp only [headNames, List.mem_cons, List.not_mem_nil, or_false, not_or]
    exact ⟨hk1, hk2, hk3, hk7, hk5, hk6, hk4⟩
  by_cases hk : isCustomDomainExtensionNode k.value = true
  · rw [if_pos hk] at hr
    have hak : annotationKey k.value = true := by rw [annotationKey_eq]; exact hk
    obtain ⟨nd, s2, r1, r2⟩ := M.bind_ok.1 hr
    obtain ⟨he, hex⟩ := extension_reads hak r1
    obtain ⟨_, s3, r4, r5⟩ := M.bind_ok.1 r2
    obtain ⟨rfl, rfl⟩ := M.ret_ok.1 r5
    unfold Heap.updBase at r4
    cases r4
    have h3 := h.call (he.call h.inv.tied)
    refine ⟨⟨_, _, h3.upd ha (fun b => { b with domainProps := OMap.set b.domainProps nd.1 nd.2 }) (fun b => ⟨rfl, rfl, rfl, rfl, rfl, rfl⟩) h3.defs ?_⟩, rfl,
      by rw [if_pos (by rw [isHeadKey, hak, Bool.or_true])]⟩
    refine ⟨reads_skip hnames h3.head.displayName (by decide), reads_skip hnames h3.head.description (by decide), reads_skip hnames h3.head.required (by decide),
      reads_skip hnames h3.head.default (by decide), reads_skip hnames h3.head.example_ (by decide), reads_skip hnames h3.head.examples (by decide),
      reads_skip hnames h3.head.facetDefs (by decide), ?_⟩
    rw [List.filter_append]
    simp only [List.filter_cons, hak, if_true, List.filter_nil]
    exact Lists.snoc h3.head.annotations hex
  · rw [if_neg hk] at hr
    have hak : annotationKey k.value = false := by rw [annotationKey_eq]; simpa using hk
    obtain ⟨rfl, rfl⟩ := M.ret_ok.1 hr
    refine ⟨⟨rg, b, { h with head := Heading.skip h.head hnames hak }⟩, rfl, ?_⟩
    rw [if_neg]
    rw [isHeadKey, hak, Bool.or_false, decide_eq_true_eq]
    simp only [List.mem_cons, List.not_mem_nil, or_false, not_or]
    exact ⟨hty, hk1, hk2, hk3, hk4, hk5, hk6, hk7, hk8⟩

theorem decodeEntries_reads (hg : Good E c) (ha : a < s1.bases.length) (hlo : lo ≤ s1.pmaps.length) : ∀ (l : List YNode) {t t' : Option YNode} {fs fs' : List YNode}
    {es : List (String × YNode)} {rg : Region} {s s' : St} {b : Base}, Head E s1 a name loc lo es rg s b → t = lastOf "type" es →
    decodeEntries E c a loc l t fs s = (.ok (t', fs'), s') →
    (∃ rg' b', Head E s1 a name loc lo (es ++ entriesOf l) rg' s' b') ∧ t' = lastOf "type" (es ++ entriesOf l) ∧ fs' = fs ++ facetNodes l
  | [], t, t', fs, fs', es, rg, s, s', b, h, ht, hr => by
    obtain ⟨e, rfl⟩ := M.ret_ok.1 hr
    cases e
    exact ⟨⟨rg, b, by simpa [entriesOf] using h⟩, by simpa [entriesOf] using ht, by simp [facetNodes]⟩
  | [_], t, t', fs, fs', es, rg, s, s', b, h, ht, hr => by cases hr
  | k :: v :: rest, t, t', fs, fs', es, rg, s, s', b, h, ht, hr => by
    obtain ⟨r, s2, r1, r2⟩ := M.bind_ok.1 hr
    obtain ⟨⟨rg2, b2, h2⟩, e1, e2⟩ := decodeValueNode_reads hg ha hlo h r1
    obtain ⟨h3, h4, h5⟩ := decodeEntries_reads hg ha hlo rest h2 (by
      rw [lastOf_snoc, e1, ht]
      by_cases hk : k.value = "type" <;> simp [hk]) r2
    rw [List.append_assoc] at h3 h4
    refine ⟨h3, h4, ?_⟩
    rw [h5, e2, facetNodes]
    split <;> simp

end

end GoRaml.Read
