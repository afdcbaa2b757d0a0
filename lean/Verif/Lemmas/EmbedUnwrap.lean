import Verif.Lemmas.EmbedInherit

/-!
# Unwrapping and recursion marking do not depend on where their data lies
-/

namespace GoRaml.Emb.Place

open GoRaml

variable {e : Place} {s : St}

theorem getElem_props (m : OMap Property) (k : Nat) : (e.props m)[k]? = (m[k]?).map fun x => (x.1, e.prop x.2) := by
  simp [props]

theorem getElem_pats (m : OMap PatternProperty) (k : Nat) : (e.pats m)[k]? = (m[k]?).map fun x => (x.1, e.pat x.2) := by
  simp [pats]

theorem props_at (i : Nat) : (e.embed s).props (some (e.sp i)) = e.props (s.props (some i)) := props_embed e s (some i)
theorem patProps_at (i : Nat) : (e.embed s).patProps (some (e.sq i)) = e.pats (s.patProps (some i)) := patProps_embed e s (some i)
theorem slice_at (i : Nat) : (e.embed s).slice (some (e.ss i)) = (s.slice (some i)).map e.sb := slice_embed e s (some i)

section
variable {rec rec' : Addr → M St Addr} (hr : ∀ a s, Com e.at' e.sb (rec a) (rec' (e.sb a)) s)
include hr

theorem unwrapProps_com (i : Nat) : ∀ (n k : Nat) (s : St), Com e.at' id (unwrapProps rec i n k) (unwrapProps rec' (e.sp i) n k) s
  | 0, _, _ => Com.diverge
  | n + 1, k, s => by
    unfold Com unwrapProps
    simp only [show e.at'.map s = e.embed s from rfl, props_at, getElem_props]
    cases (s.props (some i))[k]? with
    | none => exact fun hi => ⟨rfl, hi⟩
    | some kp =>
      refine Com.bind (hr kp.2.base s) ?_
      intro us s1
      refine Com.bind (g := id) (setPropAt_com i k rfl) ?_
      intro _ s2
      exact unwrapProps_com i n (k + 1) s2

theorem unwrapPatProps_com (i : Nat) : ∀ (n k : Nat) (s : St), Com e.at' id (unwrapPatProps rec i n k) (unwrapPatProps rec' (e.sq i) n k) s
  | 0, _, _ => Com.diverge
  | n + 1, k, s => by
    unfold Com unwrapPatProps
    simp only [show e.at'.map s = e.embed s from rfl, patProps_at, getElem_pats]
    cases (s.patProps (some i))[k]? with
    | none => exact fun hi => ⟨rfl, hi⟩
    | some kp =>
      refine Com.bind (hr kp.2.base s) ?_
      intro us s1
      refine Com.bind (g := id) (setPatPropAt_com i k rfl) ?_
      intro _ s2
      exact unwrapPatProps_com i n (k + 1) s2

theorem unwrapMembers_com (i : Nat) : ∀ (n k : Nat) (s : St), Com e.at' id (unwrapMembers rec i n k) (unwrapMembers rec' (e.ss i) n k) s
  | 0, _, _ => Com.diverge
  | n + 1, k, s => by
    unfold Com unwrapMembers
    simp only [show e.at'.map s = e.embed s from rfl, slice_at, List.getElem?_map]
    cases (s.slice (some i))[k]? with
    | none => exact fun hi => ⟨rfl, hi⟩
    | some m =>
      refine Com.bind (hr m s) ?_
      intro us s1
      refine Com.bind (g := id) (setSliceAt_com i k us) ?_
      intro _ s2
      exact unwrapMembers_com i n (k + 1) s2

theorem unwrapTarget_com (n : Nat) (a : Addr) : Com e.at' id (unwrapTarget rec n a) (unwrapTarget rec' n (e.sb a)) s := by
  unfold unwrapTarget
  refine Com.get ?_
  show Com e.at' id _ (unwrapTargetShape rec' n (e.sb a) ((e.embed s).shapeAt (e.sb a))) s
  rw [shapeAt_embed]
  cases s.shapeAt a with
  | none => exact Com.ret rfl
  | some sh =>
    cases sh
    case array f =>
      refine Com.whenSome (q := e.sb) ?_ f.items s
      intro i s1
      refine Com.bind (hr i s1) ?_
      intro us s2 hi
      have := setArray_com (e := e) (s := s2) a (f := { arrayAt s2 a with items := some us }) (f' := { arrayAt (e.embed s2) (e.sb a) with items := some (e.sb us) })
        (by rw [arrayAt_embed]; rfl) hi
      exact this
    case object f =>
      refine Com.bind (g := id) (Com.whenSome (q := e.sp) (fun i s => unwrapProps_com hr i n 0 s) f.properties s) ?_
      intro _ s1 hi
      have := Com.whenSome (φ := e.at') (q := e.sq) (f := fun i => unwrapPatProps rec i n 0) (f' := fun i => unwrapPatProps rec' i n 0) (fun i s => unwrapPatProps_com hr i n 0 s) (objectAt s1 a).patternProperties s1 hi
      show whenSome (objectAt (e.embed s1) (e.sb a)).patternProperties (fun i => unwrapPatProps rec' i n 0) (e.embed s1) = _ ∧ _
      rw [objectAt_embed]
      exact this
    case union l en => exact Com.whenSome (q := e.ss) (fun i s => unwrapMembers_com hr i n 0 s) l s
    all_goals exact Com.ret rfl

theorem unwrapMoreParents_com (n : Nat) (u : Addr) (i : Nat) : ∀ (l k : Nat) (s : St),
    Com e.at' id (unwrapMoreParents rec n u i l k) (unwrapMoreParents rec' n (e.sb u) (e.ss i) l k) s
  | 0, _, _ => Com.ret rfl
  | l + 1, k, s => by
    unfold Com unwrapMoreParents
    simp only [show e.at'.map s = e.embed s from rfl, slice_at, List.getElem?_map]
    cases (s.slice (some i))[k]? with
    | none => exact fun hi => ⟨rfl, hi⟩
    | some p =>
      refine Com.bind (hr p s) ?_
      intro us s1
      refine Com.bind (inherit_com n u us s1) ?_
      intro us' s2
      refine Com.bind (g := id) (setSliceAt_com i k us') ?_
      intro _ s3
      exact unwrapMoreParents_com n u i l (k + 1) s3

theorem unwrapParents_com (n : Nat) (a : Addr) : Com e.at' (Option.map e.sb) (unwrapParents rec n a) (unwrapParents rec' n (e.sb a)) s := by
  unfold unwrapParents
  refine Com.bind (getBase_com a) ?_
  intro b s1
  unfold Com
  simp only [base]
  cases hl : b.link with
  | some d =>
    simp only [Option.map_some, show e.at'.map s1 = e.embed s1 from rfl, dts_embed]
    cases hd : s1.dts[d]? with
    | none => exact fun hi => ⟨rfl, hi⟩
    | some x =>
      simp only [Option.map_some, Option.bind_some, dt]
      cases hx : x.shape with
      | none => exact fun hi => ⟨rfl, hi⟩
      | some y =>
        refine Com.bind (hr y s1) ?_
        intro us s2
        refine Com.bind (g := id) (updBase_com a fun b => rfl) ?_
        intro _ s3
        exact Com.ret rfl
  | none =>
    simp only [Option.map_none, show e.at'.map s1 = e.embed s1 from rfl, slice_embed]
    cases hi : b.inherits with
    | none => exact fun hi => ⟨rfl, hi⟩
    | some i =>
      cases hs : s1.slice (some i) with
      | nil => exact fun hi => ⟨rfl, hi⟩
      | cons p ps =>
        simp only [Option.map_some, List.map_cons, List.length_map]
        refine Com.bind (hr p s1) ?_
        intro u s2
        refine Com.bind (g := id) (setSliceAt_com i 0 u) ?_
        intro _ s3
        refine Com.bind (g := id) (unwrapMoreParents_com hr n u i ps.length 1 s3) ?_
        intro _ s4
        exact Com.ret rfl

theorem unwrapFacetDefs_com (a : Addr) (i : Nat) : ∀ (n k : Nat) (s : St),
    Com e.at' id (unwrapFacetDefs rec a i n k) (unwrapFacetDefs rec' (e.sb a) (e.sp i) n k) s
  | 0, _, _ => Com.diverge
  | n + 1, k, s => by
    unfold Com unwrapFacetDefs
    simp only [show e.at'.map s = e.embed s from rfl, props_at, getElem_props]
    cases (s.props (some i))[k]? with
    | none => exact fun hi => ⟨rfl, hi⟩
    | some kp =>
      refine Com.bind (hr kp.2.base s) ?_
      intro us s1
      refine Com.bind (g := e.sp) (newProps_com rfl) ?_
      intro j s2
      refine Com.bind (g := id) (updBase_com us fun b => rfl) ?_
      intro _ s3
      refine Com.bind (getBase_com a) ?_
      intro b s4
      refine Com.bind (g := id) (Com.whenSome (q := e.sp) (fun i' s => setProp_com i' kp.1 rfl) b.facetDefs s4) ?_
      intro _ s5
      exact unwrapFacetDefs_com a i n (k + 1) s5

end

theorem unwrapFinish_com (n : Nat) (a : Addr) (o : Option Addr) : Com e.at' e.sb (unwrapFinish n a o) (unwrapFinish n (e.sb a) (o.map e.sb)) s := by
  unfold unwrapFinish
  refine Com.bind (g := e.sb) ?_ ?_
  · cases o with
    | none => exact Com.ret rfl
    | some x => exact inherit_com n a x s
  · intro r s1
    exact Com.bind (g := id) (putShape_com r) fun _ _ => Com.ret rfl

theorem unwrap_com : ∀ (n : Nat) (a : Addr) (s : St), Com e.at' e.sb (unwrap n a) (unwrap n (e.sb a)) s
  | 0, _, _ => Com.diverge
  | n + 1, a, s => by
    unfold unwrap
    refine Com.bind (getBase_com a) ?_
    intro b s1
    simp only [base]
    cases b.shape with
    | none => exact Com.err
    | some sh =>
      refine Com.ite (fun _ => Com.ret rfl) fun _ => ?_
      refine Com.bind (g := id) (updBase_com a fun b => rfl) ?_
      intro _ s2
      cases b.alias with
      | some t =>
        refine Com.bind (unwrap_com n t s2) ?_
        intro us s3
        exact Com.bind (g := id) (putShape_com a) fun _ _ => aliasTo_com a us
      | none =>
        refine Com.bind (unwrapParents_com (fun a s => unwrap_com n a s) n a) ?_
        intro src s3
        refine Com.bind (g := id) (unwrapTarget_com (fun a s => unwrap_com n a s) n a) ?_
        intro _ s4
        refine Com.bind (getBase_com a) ?_
        intro b' s5
        refine Com.bind (g := id) (Com.whenSome (q := e.sp) (fun i s => unwrapFacetDefs_com (fun a s => unwrap_com n a s) a i n 0 s) b'.facetDefs s5) ?_
        intro _ s6
        exact unwrapFinish_com n a src

/-! ## Marking -/

theorem forRange_com {f f' : Nat → M St Unit} (h : ∀ k s, Com e.at' id (f k) (f' k) s) (l : List Nat) (s : St) :
    Com e.at' id (M.forEach f l) (M.forEach f' l) s := by
  have := Com.forEach (φ := e.at') (q := id) h l s
  rwa [List.map_id] at this

theorem makeBaseShape_com (name location : String) : Com e.at' e.sb (makeBaseShape name location) (makeBaseShape name location) s := by
  unfold makeBaseShape
  refine Com.bind newID_com ?_
  intro id' s1
  refine Com.bind (g := e.sf) (newFacets_com rfl) ?_
  intro fm s2
  refine Com.bind (g := e.sp) (newProps_com rfl) ?_
  intro fd s3
  refine Com.bind (g := e.sb) (newBase_com rfl) ?_
  intro a s4
  exact Com.bind (g := id) (putShape_com a) fun _ _ => Com.ret rfl

theorem makeRecursive_com (a : Addr) (b : Base) : Com e.at' e.sb (makeRecursive a b) (makeRecursive (e.sb a) (e.base b)) s := by
  unfold makeRecursive
  refine Com.bind (makeBaseShape_com b.name b.location) ?_
  intro r s1
  exact Com.bind (g := id) (updBase_com r fun b => rfl) fun _ _ => Com.ret rfl

section
variable {rec rec' : Addr → M St (Option Addr)} (hr : ∀ a s, Com e.at' (Option.map e.sb) (rec a) (rec' (e.sb a)) s)
include hr

theorem markProp_com (i k : Nat) (s : St) : Com e.at' id (markProp rec i k) (markProp rec' (e.sp i) k) s := by
  unfold Com markProp
  simp only [show e.at'.map s = e.embed s from rfl, props_at, getElem_props]
  cases (s.props (some i))[k]? with
  | none => exact fun hi => ⟨rfl, hi⟩
  | some kp =>
    refine Com.bind (hr kp.2.base s) ?_
    intro rs s1
    exact Com.whenSome (q := e.sb) (fun r s => setPropAt_com i k rfl) rs s1

theorem markPatProp_com (i k : Nat) (s : St) : Com e.at' id (markPatProp rec i k) (markPatProp rec' (e.sq i) k) s := by
  unfold Com markPatProp
  simp only [show e.at'.map s = e.embed s from rfl, patProps_at, getElem_pats]
  cases (s.patProps (some i))[k]? with
  | none => exact fun hi => ⟨rfl, hi⟩
  | some kp =>
    refine Com.bind (hr kp.2.base s) ?_
    intro rs s1
    exact Com.whenSome (q := e.sb) (fun r s => setPatPropAt_com i k rfl) rs s1

theorem markMember_com (i k : Nat) (s : St) : Com e.at' id (markMember rec i k) (markMember rec' (e.ss i) k) s := by
  unfold Com markMember
  simp only [show e.at'.map s = e.embed s from rfl, slice_at, List.getElem?_map]
  cases (s.slice (some i))[k]? with
  | none => exact fun hi => ⟨rfl, hi⟩
  | some m =>
    refine Com.bind (hr m s) ?_
    intro rs s1
    exact Com.whenSome (q := e.sb) (fun r s => setSliceAt_com i k r) rs s1

theorem markProps_com (i : Nat) (s : St) : Com e.at' id (markProps rec i) (markProps rec' (e.sp i)) s := by
  unfold Com markProps
  simp only [show e.at'.map s = e.embed s from rfl, props_at, props, List.length_map]
  exact forRange_com (fun k s => markProp_com hr i k s) _ s

theorem markPatProps_com (i : Nat) (s : St) : Com e.at' id (markPatProps rec i) (markPatProps rec' (e.sq i)) s := by
  unfold Com markPatProps
  simp only [show e.at'.map s = e.embed s from rfl, patProps_at, pats, List.length_map]
  exact forRange_com (fun k s => markPatProp_com hr i k s) _ s

theorem markMembers_com (i : Nat) (s : St) : Com e.at' id (markMembers rec i) (markMembers rec' (e.ss i)) s := by
  unfold Com markMembers
  simp only [show e.at'.map s = e.embed s from rfl, slice_at, List.length_map]
  exact forRange_com (fun k s => markMember_com hr i k s) _ s

theorem markShape_com (a : Addr) (o : Option Shape) : Com e.at' id (markShape rec a o) (markShape rec' (e.sb a) (o.map e.shape)) s := by
  cases o with
  | none => exact Com.ret rfl
  | some sh =>
    cases sh
    case array f =>
      refine Com.whenSome (q := e.sb) ?_ f.items s
      intro i s1
      refine Com.bind (hr i s1) ?_
      intro rs s2
      exact Com.whenSome (q := e.sb) (fun r s => setArray_com a rfl) rs s2
    case object f =>
      refine Com.bind (g := id) (Com.whenSome (q := e.sp) (fun i s => markProps_com hr i s) f.properties s) ?_
      intro _ s1
      exact Com.whenSome (q := e.sq) (fun i s => markPatProps_com hr i s) f.patternProperties s1
    case union l en => exact Com.whenSome (q := e.ss) (fun i s => markMembers_com hr i s) l s
    all_goals exact Com.ret rfl

end

theorem mark_com : ∀ (n : Nat) (a : Addr) (s : St), Com e.at' (Option.map e.sb) (mark n a) (mark n (e.sb a)) s
  | 0, _, _ => Com.diverge
  | n + 1, a, s => by
    unfold mark
    refine Com.bind (getBase_com a) ?_
    intro b s1
    refine Com.ite (fun _ => Com.err) fun _ => Com.ite (fun _ => ?_) fun _ => ?_
    · refine Com.bind (makeRecursive_com a b) ?_
      intro r s2
      exact Com.bind (g := id) (updBase_com r fun b => rfl) fun _ _ => Com.ret rfl
    · refine Com.bind (g := id) (updBase_com a fun b => rfl) ?_
      intro _ s2
      refine Com.bind (g := id) (markShape_com (fun a s => mark_com n a s) a b.shape) ?_
      intro _ s3
      refine Com.bind (g := id) (updBase_com a fun b => rfl) ?_
      intro _ s4
      refine Com.bind (g := id) (Com.whenSome (q := e.sp) (fun i s => markProps_com (fun a s => mark_com n a s) i s) b.facetDefs s4) ?_
      intro _ s5
      exact Com.ret rfl

end GoRaml.Emb.Place
