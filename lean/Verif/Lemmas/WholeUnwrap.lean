import Verif.Lemmas.WholeInherit
import Verif.Lemmas.MarkRun

/-!
# Unwrapping and marking keep a model well-formed and panic only as allowed
-/

namespace GoRaml.Whole

open GoRaml GoRaml.Spec GoRaml.Load

variable {K : Par}

/-- What the recursive call of an unwrapping function does. -/
def URec (K : Par) (rec : Addr → M St Addr) : Prop := ∀ a s, Wf K s → IsBase s a → Fine K (rec a) s fun c s' => IsBase s' c

theorem whenSome_fine {α : Type} {p : Option α} {f : α → M St Unit} {s : St} (hw : Wf K s) (h : ∀ a, p = some a → Fine K (f a) s fun _ _ => True) :
    Fine K (whenSome p f) s fun _ _ => True := by
  cases p with
  | none => exact Fine.ret hw trivial
  | some a => exact h a rfl

section
variable {rec : Addr → M St Addr} (hr : URec K rec)
include hr

theorem unwrapProps_fine {i : Nat} : ∀ {n k : Nat} {s : St}, Wf K s → Fine K (unwrapProps rec i n k) s fun _ _ => True
  | 0, _, _, hw => Fine.diverge hw
  | n + 1, k, s, hw => by
    cases hk : (s.props (some i))[k]? with
    | none => exact Safe.congr (m := M.ret ()) (by simp only [unwrapProps, hk]; rfl) (Fine.ret hw trivial)
    | some kp =>
      refine Safe.congr (m := M.bind (rec kp.2.base) fun us => M.bind (Heap.setPropAt i k (kp.1, { kp.2 with base := us })) fun _ => unwrapProps rec i n (k + 1))
        (by simp only [unwrapProps, hk]) ?_
      refine Fine.bind (hr _ s hw (hw.propsOf (List.mem_of_getElem? hk))) fun us s1 hw1 g1 q1 => ?_
      exact Fine.bind (Fine.setPropAt hw1 q1) fun _ s2 hw2 g2 _ => unwrapProps_fine hw2

theorem unwrapPatProps_fine {i : Nat} : ∀ {n k : Nat} {s : St}, Wf K s → Fine K (unwrapPatProps rec i n k) s fun _ _ => True
  | 0, _, _, hw => Fine.diverge hw
  | n + 1, k, s, hw => by
    cases hk : (s.patProps (some i))[k]? with
    | none => exact Safe.congr (m := M.ret ()) (by simp only [unwrapPatProps, hk]; rfl) (Fine.ret hw trivial)
    | some kp =>
      refine Safe.congr (m := M.bind (rec kp.2.base) fun us => M.bind (Heap.setPatPropAt i k (kp.1, { kp.2 with base := us })) fun _ =>
        unwrapPatProps rec i n (k + 1)) (by simp only [unwrapPatProps, hk]) ?_
      refine Fine.bind (hr _ s hw (hw.patPropsOf (List.mem_of_getElem? hk))) fun us s1 hw1 g1 q1 => ?_
      exact Fine.bind (Fine.setPatPropAt hw1 q1) fun _ s2 hw2 g2 _ => unwrapPatProps_fine hw2

theorem unwrapMembers_fine {i : Nat} : ∀ {n k : Nat} {s : St}, Wf K s → Fine K (unwrapMembers rec i n k) s fun _ _ => True
  | 0, _, _, hw => Fine.diverge hw
  | n + 1, k, s, hw => by
    cases hk : (s.slice (some i))[k]? with
    | none => exact Safe.congr (m := M.ret ()) (by simp only [unwrapMembers, hk]; rfl) (Fine.ret hw trivial)
    | some m =>
      refine Safe.congr (m := M.bind (rec m) fun us => M.bind (Heap.setSliceAt i k us) fun _ => unwrapMembers rec i n (k + 1))
        (by simp only [unwrapMembers, hk]) ?_
      refine Fine.bind (hr _ s hw (hw.sliceOf (List.mem_of_getElem? hk))) fun us s1 hw1 g1 q1 => ?_
      exact Fine.bind (Fine.setSliceAt hw1 q1) fun _ s2 hw2 g2 _ => unwrapMembers_fine hw2

theorem unwrapTarget_fine {n : Nat} {a : Addr} {s : St} (hw : Wf K s) : Fine K (unwrapTarget rec n a) s fun _ _ => True := by
  refine Safe.get ?_
  unfold unwrapTargetShape
  split
  · rename_i f hf
    refine whenSome_fine hw fun i hi => ?_
    refine Fine.bind (hr i s hw ((hw.shapeAt hf).1 i hi)) fun us s1 hw1 g1 q1 => ?_
    exact Fine.setArray hw1 fun x hx => by cases hx; exact q1
  · rename_i f hf
    refine Fine.bind (whenSome_fine hw fun i hi => unwrapProps_fine hr hw) fun _ s1 hw1 g1 _ => ?_
    exact whenSome_fine hw1 fun i hi => unwrapPatProps_fine hr hw1
  · exact whenSome_fine hw fun i hi => unwrapMembers_fine hr hw
  · exact Fine.ret hw trivial

theorem unwrapMoreParents_fine {n : Nat} {ss : Addr} {i : Nat} : ∀ {left k : Nat} {s : St}, Wf K s → IsBase s ss →
    Fine K (unwrapMoreParents rec n ss i left k) s fun _ _ => True
  | 0, _, _, hw, _ => Fine.ret hw trivial
  | left + 1, k, s, hw, hs => by
    cases hk : (s.slice (some i))[k]? with
    | none => exact Safe.congr (m := M.ret ()) (by simp only [unwrapMoreParents, hk]; rfl) (Fine.ret hw trivial)
    | some p =>
      refine Safe.congr (m := M.bind (rec p) fun us => M.bind (inherit n ss us) fun us' => M.bind (Heap.setSliceAt i k us') fun _ =>
        unwrapMoreParents rec n ss i left (k + 1)) (by simp only [unwrapMoreParents, hk]) ?_
      refine Fine.bind (hr _ s hw (hw.sliceOf (List.mem_of_getElem? hk))) fun us s1 hw1 g1 q1 => ?_
      refine Fine.bind (inherit_fine n ss us s1 hw1 (g1.isBase hs) q1) fun us' s2 hw2 g2 q2 => ?_
      exact Fine.bind (Fine.setSliceAt hw2 q2) fun _ s3 hw3 g3 _ => unwrapMoreParents_fine hw3 ((g1.trans (g2.trans g3)).isBase hs)

theorem unwrapParents_fine {n : Nat} {a : Addr} {s : St} (hw : Wf K s) (ha : IsBase s a) : Fine K (unwrapParents rec n a) s fun o s' => IfSome (IsBase s') o := by
  refine Fine.bind (Fine.getBase hw ha) fun b s0 hw0 g0 q0 => ?_
  obtain ⟨rfl, hb, fb⟩ := q0
  cases hl : b.link with
  | some d =>
    have hd := fb.ptrs.link d hl
    obtain ⟨x, hx, bx⟩ := (hw.dt _ (List.getElem_mem hd)).shape
    refine Safe.congr (m := M.bind (rec x) fun us => M.bind (Heap.updBase a fun y => { y with link := none }) fun _ => M.ret (some us))
      (by simp only [List.getElem?_eq_getElem hd, Option.bind_some, hx]) ?_
    refine Fine.bind (hr x _ hw bx) fun us s1 hw1 g1 q1 => ?_
    refine Fine.bind (Fine.upd hw1 fun y _ fy => ⟨{ fy.ptrs with link := fun i hi => by cases hi }, fy.shape,
      ⟨fy.vals.example, fy.vals.examples, fy.vals.default⟩⟩) fun _ s2 hw2 g2 _ => Fine.ret hw2 fun y hy => by cases hy; exact g2.isBase q1
  | none =>
    simp only
    cases hi : b.inherits with
    | none => exact Safe.congr (m := M.ret none) rfl (Fine.ret hw fun y hy => by cases hy)
    | some i =>
      cases hs : s0.slice (some i) with
      | nil => exact Safe.congr (m := M.ret none) (by simp only [hs]; rfl) (Fine.ret hw fun y hy => by cases hy)
      | cons p ps =>
        refine Safe.congr (m := M.bind (rec p) fun ss => M.bind (Heap.setSliceAt i 0 ss) fun _ => M.bind (unwrapMoreParents rec n ss i ps.length 1) fun _ =>
          M.ret (some ss)) (by simp only [hs]) ?_
        refine Fine.bind (hr p _ hw (hw.sliceOf (by rw [hs]; simp))) fun ss s1 hw1 g1 q1 => ?_
        refine Fine.bind (Fine.setSliceAt hw1 q1) fun _ s2 hw2 g2 _ => ?_
        refine Fine.bind (unwrapMoreParents_fine hr hw2 (g2.isBase q1)) fun _ s3 hw3 g3 _ => Fine.ret hw3 fun y hy => by cases hy; exact (g2.trans g3).isBase q1

theorem unwrapFacetDefs_fine {a : Addr} {i : Nat} : ∀ {n k : Nat} {s : St}, Wf K s → IsBase s a → Fine K (unwrapFacetDefs rec a i n k) s fun _ _ => True
  | 0, _, _, hw, _ => Fine.diverge hw
  | n + 1, k, s, hw, ha => by
    cases hk : (s.props (some i))[k]? with
    | none => exact Safe.congr (m := M.ret ()) (by simp only [unwrapFacetDefs, hk]; rfl) (Fine.ret hw trivial)
    | some kp =>
      refine Safe.congr (m := M.bind (rec kp.2.base) fun us => M.bind (Heap.newProps []) fun j => M.bind (Heap.updBase us fun y => { y with facetDefs := some j })
        fun _ => M.bind (Heap.getBase a) fun b => M.bind (whenSome b.facetDefs fun i' => Heap.setProp i' kp.1 { kp.2 with base := us }) fun _ =>
        unwrapFacetDefs rec a i n (k + 1)) (by simp only [unwrapFacetDefs, hk]) ?_
      refine Fine.bind (hr _ s hw (hw.propsOf (List.mem_of_getElem? hk))) fun us s1 hw1 g1 q1 => ?_
      refine Fine.bind (Fine.newProps hw1 fun _ h => by cases h) fun j s2 hw2 g2 q2 => ?_
      refine Fine.bind (Fine.upd (f := fun y => { y with facetDefs := some j }) hw2 fun y _ fy => ⟨{ fy.ptrs with facetDefs := fun x hx => by cases hx; exact q2 }, fy.shape,
        ⟨fy.vals.example, fy.vals.examples, fy.vals.default⟩⟩).done fun _ s3 hw3 g3 _ => ?_
      have g03 := g1.trans (g2.trans g3)
      refine Fine.bind (Fine.getBase hw3 (g03.isBase ha)) fun b s4 hw4 g4 q4 => ?_
      refine Fine.bind (whenSome_fine hw4 fun i' hi' => Fine.setProp hw4 ((g2.trans (g3.trans g4)).isBase q1)) fun _ s5 hw5 g5 _ => ?_
      exact unwrapFacetDefs_fine hw5 ((g03.trans (g4.trans g5)).isBase ha)

end

theorem unwrapFinish_fine {n : Nat} {a : Addr} {o : Option Addr} {s : St} (hw : Wf K s) (ha : IsBase s a) (ho : IfSome (IsBase s) o) :
    Fine K (unwrapFinish n a o) s fun c s' => IsBase s' c := by
  refine Fine.bind (Q := fun c s' => IsBase s' c) ?_ fun r s1 hw1 g1 q1 => ?_
  · cases o with
    | none => exact Fine.ret hw ha
    | some x => exact inherit_fine n a x s hw ha (ho x rfl)
  · exact Fine.bind (Fine.putShape hw1) fun _ s2 hw2 g2 _ => Fine.ret hw2 (g2.isBase q1)

theorem unwrap_fine : ∀ n, URec K (unwrap n)
  | 0 => fun _ _ hw _ => Fine.diverge hw
  | n + 1 => fun a s hw ha => by
    refine Fine.bind (Fine.getBase hw ha) fun b s0 hw0 g0 q0 => ?_
    obtain ⟨rfl, hb, fb⟩ := q0
    obtain ⟨sh, hs, _⟩ := fb.shape
    rw [hs]
    simp only
    split
    · exact Fine.ret hw ha
    · refine Fine.bind (Fine.upd (f := fun y => { y with unwrapped := true }) hw fun _ _ hx => hx.flag rfl rfl rfl rfl rfl rfl rfl rfl rfl).done
        fun _ s1 hw1 g1 _ => ?_
      cases hal : b.alias with
      | some t =>
        refine Fine.bind (unwrap_fine n t s1 hw1 (g1.isBase (fb.ptrs.alias t hal))) fun us s2 hw2 g2 q2 => ?_
        refine Fine.bind (Fine.putShape hw2) fun _ s3 hw3 g3 _ => ?_
        exact aliasTo_fine hw3 ((g1.trans (g2.trans g3)).isBase ha) (g3.isBase q2)
      | none =>
        refine Fine.bind (unwrapParents_fine (unwrap_fine n) hw1 (g1.isBase ha)) fun o s2 hw2 g2 q2 => ?_
        refine Fine.bind (unwrapTarget_fine (unwrap_fine n) hw2) fun _ s3 hw3 g3 _ => ?_
        have g03 := g1.trans (g2.trans g3)
        refine Fine.bind (Fine.getBase hw3 (g03.isBase ha)) fun b' s4 hw4 g4 _ => ?_
        refine Fine.bind (whenSome_fine hw4 fun i hi => unwrapFacetDefs_fine (unwrap_fine n) hw4 ((g03.trans g4).isBase ha)) fun _ s5 hw5 g5 _ => ?_
        exact unwrapFinish_fine hw5 ((g03.trans (g4.trans g5)).isBase ha) fun x hx => (g3.trans (g4.trans g5)).isBase (q2 x hx)

/-! ## Marking -/

theorem fine_visitedBranch [hR : K.Rec] {a : Addr} {b : Base} {s : St} (hw : Wf K s) (ha : IsBase s a) (fb : BaseFine K s b) :
    Fine K (M.bind (makeRecursive a b) fun r => M.bind (Heap.updBase r fun x => { x with unwrapped := true }) fun _ => M.ret (some r)) s
      fun o s' => IfSome (IsBase s') o := by
  have e : ∃ L s', (M.bind (makeRecursive a b) fun r => M.bind (Heap.updBase r fun x => { x with unwrapped := true }) fun _ => M.ret (some r)) s =
      (.ok (some s.bases.length), s') ∧ s' = { s with idCounter := s.idCounter + 1, fmaps := s.fmaps ++ [[]], pmaps := s.pmaps ++ [[]], bases := s.bases ++ [L],
                                                      shapes := s.shapes ++ [s.bases.length] } ∧
      L.shape = some (.recursive a) ∧ L.facets = b.facets ∧ L.facetDefs = some s.pmaps.length ∧ L.alias = none ∧ L.inherits = none ∧ L.link = none ∧
      L.example_ = none ∧ L.examples = none ∧ L.default = none := by
    unfold makeRecursive makeBaseShape
    simp only [M.bind, Heap.newID, Heap.newFacets, Heap.newProps, Heap.newBase, Heap.putShape, Heap.updBase, M.ret, modify_last]
    exact ⟨_, _, rfl, rfl, rfl, rfl, rfl, rfl, rfl, rfl, rfl, rfl, rfl⟩
  obtain ⟨L, s', he, hs', l1, l2, l3, l4, l5, l6, l7, l8, l9⟩ := e
  have g : Bigger s s' := by
    subst hs'
    exact ⟨⟨by simp, by simp, Nat.le_refl _, by simp, Nat.le_refl _, Nat.le_refl _, Nat.le_refl _, Nat.le_refl _⟩, rfl, List.prefix_rfl, rfl, rfl, rfl, rfl⟩
  unfold Fine Safe Outcome
  rw [he]
  refine ⟨?_, g, fun x hx => by cases hx; subst hs'; simp [IsBase]⟩
  have hb : s'.bases = s.bases ++ [L] := by rw [hs']
  have hp : s'.pmaps = s.pmaps ++ [[]] := by rw [hs']
  have hfm : s'.fmaps = s.fmaps ++ [[]] := by rw [hs']
  refine hw.grow g (fun x c hc => ?_) (fun m hm => ?_) (fun m hm => .inl (by rw [hs'] at hm; exact hm)) (fun m hm => .inl (by rw [hs'] at hm; exact hm))
    (fun m hm => ?_) (fun m hm => .inl (by rw [hs'] at hm; exact hm))
  · unfold St.base at hc ⊢
    rw [hb, List.getElem?_append] at hc
    split at hc
    · exact .inl hc
    · rw [List.getElem?_singleton] at hc
      split at hc
      · cases hc
        refine .inr ⟨⟨fun y hy => ?_, ?_, fun y hy => ?_, fun y hy => ?_, fun y hy => ?_, fun y hy => ?_⟩, ⟨_, l1, hR.allowed⟩, ⟨fun y hy => ?_, fun y m hy => ?_, fun y hy => ?_⟩⟩
        · rw [l1] at hy; cases hy; exact g.isBase ha
        · rw [l2]; obtain ⟨i, h1, h2⟩ := fb.ptrs.facets; exact ⟨i, h1, Nat.lt_of_lt_of_le h2 g.longer.fmaps⟩
        · rw [l3] at hy; cases hy; rw [hp]; simp
        · rw [l4] at hy; cases hy
        · rw [l5] at hy; cases hy
        · rw [l6] at hy; cases hy
        · rw [l7] at hy; cases hy
        · rw [l8] at hy; cases hy
        · rw [l9] at hy; cases hy
      · cases hc
  · rw [hp] at hm
    rcases List.mem_append.1 hm with h | h
    · exact .inl h
    · cases List.mem_singleton.1 h; exact .inr fun _ he => by cases he
  · rw [hfm] at hm
    rcases List.mem_append.1 hm with h | h
    · exact .inl h
    · cases List.mem_singleton.1 h; exact .inr fun _ he => by cases he

/-- What the recursive call of a marking function does. -/
def MRec (K : Par) (rec : Addr → M St (Option Addr)) : Prop := ∀ a s, Wf K s → IsBase s a → Fine K (rec a) s fun o s' => IfSome (IsBase s') o

section
variable {rec : Addr → M St (Option Addr)} (hr : MRec K rec)
include hr

theorem markProp_fine {i k : Nat} {s : St} (hw : Wf K s) : Fine K (markProp rec i k) s fun _ _ => True := by
  cases hk : (s.props (some i))[k]? with
  | none => exact Safe.congr (m := M.ret ()) (by simp only [markProp, hk]; rfl) (Fine.ret hw trivial)
  | some kp =>
    refine Safe.congr (m := M.bind (rec kp.2.base) fun rs => whenSome rs fun r => Heap.setPropAt i k (kp.1, { kp.2 with base := r }))
      (by simp only [markProp, hk]) ?_
    refine Fine.bind (hr _ s hw (hw.propsOf (List.mem_of_getElem? hk))) fun rs s1 hw1 _ q1 => ?_
    exact whenSome_fine hw1 fun r h => Fine.setPropAt hw1 (q1 r h)

theorem markPatProp_fine {i k : Nat} {s : St} (hw : Wf K s) : Fine K (markPatProp rec i k) s fun _ _ => True := by
  cases hk : (s.patProps (some i))[k]? with
  | none => exact Safe.congr (m := M.ret ()) (by simp only [markPatProp, hk]; rfl) (Fine.ret hw trivial)
  | some kp =>
    refine Safe.congr (m := M.bind (rec kp.2.base) fun rs => whenSome rs fun r => Heap.setPatPropAt i k (kp.1, { kp.2 with base := r }))
      (by simp only [markPatProp, hk]) ?_
    refine Fine.bind (hr _ s hw (hw.patPropsOf (List.mem_of_getElem? hk))) fun rs s1 hw1 _ q1 => ?_
    exact whenSome_fine hw1 fun r h => Fine.setPatPropAt hw1 (q1 r h)

theorem markMember_fine {i k : Nat} {s : St} (hw : Wf K s) : Fine K (markMember rec i k) s fun _ _ => True := by
  cases hk : (s.slice (some i))[k]? with
  | none => exact Safe.congr (m := M.ret ()) (by simp only [markMember, hk]; rfl) (Fine.ret hw trivial)
  | some kp =>
    refine Safe.congr (m := M.bind (rec kp) fun rs => whenSome rs fun r => Heap.setSliceAt i k r) (by simp only [markMember, hk]) ?_
    refine Fine.bind (hr _ s hw (hw.sliceOf (List.mem_of_getElem? hk))) fun rs s1 hw1 _ q1 => ?_
    exact whenSome_fine hw1 fun r h => Fine.setSliceAt hw1 (q1 r h)

theorem markProps_fine {i : Nat} {s : St} (hw : Wf K s) : Fine K (markProps rec i) s fun _ _ => True :=
  Safe.forEach Bigger.refl (fun _ _ _ h k => Bigger.trans h k) (Q := fun _ => True) (fun _ _ => trivial) hw fun _ _ _ hw' _ => markProp_fine hr hw'

theorem markPatProps_fine {i : Nat} {s : St} (hw : Wf K s) : Fine K (markPatProps rec i) s fun _ _ => True :=
  Safe.forEach Bigger.refl (fun _ _ _ h k => Bigger.trans h k) (Q := fun _ => True) (fun _ _ => trivial) hw fun _ _ _ hw' _ => markPatProp_fine hr hw'

theorem markMembers_fine {i : Nat} {s : St} (hw : Wf K s) : Fine K (markMembers rec i) s fun _ _ => True :=
  Safe.forEach Bigger.refl (fun _ _ _ h k => Bigger.trans h k) (Q := fun _ => True) (fun _ _ => trivial) hw fun _ _ _ hw' _ => markMember_fine hr hw'

theorem markShape_fine {a : Addr} {sh : Option Shape} {s : St} (hw : Wf K s) (hs : IfSome (ShapeIn s) sh) : Fine K (markShape rec a sh) s fun _ _ => True := by
  unfold markShape
  split
  · rename_i f
    refine whenSome_fine hw fun i hi => ?_
    refine Fine.bind (hr i s hw (hs _ rfl i hi)) fun rs s1 hw1 g1 q1 => ?_
    exact whenSome_fine hw1 fun r h => Fine.setArray hw1 fun x hx => by cases hx; exact q1 r h
  · exact Fine.bind (whenSome_fine hw fun i _ => markProps_fine hr hw) fun _ s1 hw1 _ _ => whenSome_fine hw1 fun i _ => markPatProps_fine hr hw1
  · exact whenSome_fine hw fun i _ => markMembers_fine hr hw
  · exact Fine.ret hw trivial

end

theorem mark_fine [K.Rec] : ∀ n, MRec K (mark n)
  | 0 => fun _ _ hw _ => Fine.diverge hw
  | n + 1 => fun a s hw ha => by
    refine Fine.bind (Fine.getBase hw ha) fun b s0 hw0 g0 q0 => ?_
    obtain ⟨rfl, hb, fb⟩ := q0
    split
    · exact Fine.err hw
    split
    · exact fine_visitedBranch hw ha fb
    · refine Fine.bind (Fine.visited hw) fun _ s1 hw1 g1 _ => ?_
      refine Fine.bind (markShape_fine (mark_fine n) hw1 fun x hx => ShapeIn.grow g1 (fb.ptrs.shape x hx)) fun _ s2 hw2 _ _ => ?_
      refine Fine.bind (Fine.visited hw2) fun _ s3 hw3 _ _ => ?_
      refine Fine.bind (whenSome_fine hw3 fun i _ => markProps_fine (mark_fine n) hw3) fun _ s4 hw4 _ _ => Fine.ret hw4 fun x hx => by cases hx

end GoRaml.Whole
