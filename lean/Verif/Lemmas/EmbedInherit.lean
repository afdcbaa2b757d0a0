import Verif.Lemmas.EmbedClone

/-!
# Inheritance does not depend on where its data lies
-/

namespace GoRaml.Emb.Place

open GoRaml

variable {e : Place} {s : St}

theorem arrayAt_embed (h : St) (a : Addr) : arrayAt (e.embed h) (e.sb a) = e.arr (arrayAt h a) := by
  unfold arrayAt
  rw [shapeAt_embed]
  cases h.shapeAt a with
  | none => rfl
  | some sh => cases sh <;> rfl

theorem objectAt_embed (h : St) (a : Addr) : objectAt (e.embed h) (e.sb a) = e.obj (objectAt h a) := by
  unfold objectAt
  rw [shapeAt_embed]
  cases h.shapeAt a with
  | none => rfl
  | some sh => cases sh <;> rfl

theorem unionAt_embed (h : St) (a : Addr) : unionAt (e.embed h) (e.sb a) = ((unionAt h a).1.map e.ss, (unionAt h a).2) := by
  unfold unionAt
  rw [shapeAt_embed]
  cases h.shapeAt a with
  | none => rfl
  | some sh => cases sh <;> rfl

theorem leafInherit_shape (t u : Shape) : leafInherit (e.shape t) (e.shape u) = out e.shape (leafInherit t u) := by
  cases t <;> cases u <;> try rfl
  case string.string f g => simp only [shape, leafInherit]; cases f.inherit g <;> rfl
  case integer.integer f g => simp only [shape, leafInherit]; cases f.inherit g <;> rfl
  case number.number f g => simp only [shape, leafInherit]; cases f.inherit g <;> rfl
  case file.file f g => simp only [shape, leafInherit]; cases f.inherit g <;> rfl
  case boolean.boolean f g => simp only [shape, leafInherit]; cases inheritEnum f g <;> rfl
  case datetime.datetime f g => simp only [shape, leafInherit]; cases inheritFormat f g <;> rfl
  case json.json a b c d => simp only [shape, leafInherit]; split <;> rfl

theorem aliasShape_shape (t u : Shape) : aliasShape (e.shape t) (e.shape u) = out e.shape (aliasShape t u) := by
  cases t <;> cases u <;> rfl

theorem inheritBounds_arr (f g : ArrayF) : (e.arr f).inheritBounds (e.arr g) = out e.arr (f.inheritBounds g) := by
  unfold ArrayF.inheritBounds
  simp only [arr]
  cases inheritLower natLt f.minItems g.minItems with
  | ok x =>
    simp only [Out.bind]
    cases inheritUpper natLt f.maxItems g.maxItems with
    | ok y =>
      simp only
      rcases f.uniqueItems with _ | _ | _ <;> rcases g.uniqueItems with _ | _ | _ <;> rfl
    | _ => rfl
  | _ => rfl

theorem inheritOwn_obj (f g : ObjectF) : (e.obj f).inheritOwn (e.obj g) = out e.obj (f.inheritOwn g) := by
  unfold ObjectF.inheritOwn
  simp only [obj]
  cases inheritLower natLt f.minProperties g.minProperties with
  | ok x =>
    simp only [Out.bind]
    cases inheritUpper natLt f.maxProperties g.maxProperties <;> rfl
  | _ => rfl

theorem setShape_com (a : Addr) {sh sh' : Shape} (h : sh' = e.shape sh) : Com e.at' id (setShape a sh) (setShape (e.sb a) sh') s := by
  subst h
  exact updBase_com a fun b => rfl

theorem setArray_com (a : Addr) {f f' : ArrayF} (h : f' = e.arr f) : Com e.at' id (setArray a f) (setArray (e.sb a) f') s := by
  subst h
  refine updBase_com a fun b => ?_
  rcases b with ⟨sh⟩
  cases sh with
  | none => rfl
  | some sh => cases sh <;> rfl

theorem setObject_com (a : Addr) {f f' : ObjectF} (h : f' = e.obj f) : Com e.at' id (setObject a f) (setObject (e.sb a) f') s := by
  subst h
  refine updBase_com a fun b => ?_
  rcases b with ⟨sh⟩
  cases sh with
  | none => rfl
  | some sh => cases sh <;> rfl

/-- The result of a step that may fail. -/
abbrev exc (e : Place) : Except String Addr → Except String Addr := fun r => match r with | .ok x => .ok (e.sb x) | .error m => .error m

section
variable {rec rec' : Addr → Addr → M St Addr} (hr : ∀ a b s, Com e.at' e.sb (rec a b) (rec' (e.sb a) (e.sb b)) s)
include hr

theorem inheritArray_com (a b : Addr) : Com e.at' id (inheritArray rec a b) (inheritArray rec' (e.sb a) (e.sb b)) s := by
  unfold inheritArray
  refine Com.get (Com.bind (g := id) ?_ fun _ s1 => Com.get (Com.bind (g := e.arr) ?_ fun _ s2 => setArray_com a rfl))
  · show Com e.at' id _ (match (arrayAt (e.embed s) (e.sb a)).items, (arrayAt (e.embed s) (e.sb b)).items with
      | none, items => setArray (e.sb a) { arrayAt (e.embed s) (e.sb a) with items }
      | some i, some j => M.bind (rec' i j) fun _ => M.ret ()
      | some _, none => M.ret ()) s
    rw [arrayAt_embed, arrayAt_embed]
    cases hi : (arrayAt s a).items with
    | none =>
      simp only [arr, hi]
      exact setArray_com a rfl
    | some i =>
      cases hj : (arrayAt s b).items with
      | none => simp only [arr, hi, hj]; exact Com.ret rfl
      | some j => simp only [arr, hi, hj]; exact Com.bind (hr i j s) fun _ _ => Com.ret rfl
  · refine Com.lift ?_
    show (arrayAt (e.embed s1) (e.sb a)).inheritBounds (arrayAt (e.embed s1) (e.sb b)) = _
    rw [arrayAt_embed, arrayAt_embed, inheritBounds_arr]

theorem inheritProp_com (i : Nat) (kp : String × Property) : Com e.at' id (inheritProp rec i kp) (inheritProp rec' (e.sp i) (kp.1, e.prop kp.2)) s := by
  unfold inheritProp
  refine Com.get ?_
  have h1 : (e.embed s).props (some (e.sp i)) = e.props (s.props (some i)) := props_embed e s (some i)
  show Com e.at' id _ (match OMap.get ((e.embed s).props (some (e.sp i))) kp.1 with
    | some tp => if (e.prop kp.2).required && !tp.required then M.err "cannot make required property optional"
      else M.bind (rec' tp.base (e.prop kp.2).base) fun _ => M.ret ()
    | none => Heap.setProp (e.sp i) kp.1 (e.prop kp.2)) s
  rw [h1, get_props]
  cases OMap.get (s.props (some i)) kp.1 with
  | none => exact setProp_com i kp.1 rfl
  | some tp =>
    exact Com.ite (fun _ => Com.err) fun _ => Com.bind (hr _ _ s) fun _ _ => Com.ret rfl

theorem inheritPatProp_com (i : Nat) (kp : String × PatternProperty) : Com e.at' id (inheritPatProp rec i kp) (inheritPatProp rec' (e.sq i) (kp.1, e.pat kp.2)) s := by
  unfold inheritPatProp
  refine Com.get ?_
  have h1 : (e.embed s).patProps (some (e.sq i)) = e.pats (s.patProps (some i)) := patProps_embed e s (some i)
  show Com e.at' id _ (match OMap.get ((e.embed s).patProps (some (e.sq i))) kp.1 with
    | some tp => M.bind (rec' tp.base (e.pat kp.2).base) fun _ => M.ret ()
    | none => Heap.setPatProp (e.sq i) kp.1 (e.pat kp.2)) s
  rw [h1, get_pats]
  cases OMap.get (s.patProps (some i)) kp.1 with
  | none => exact setPatProp_com i kp.1 rfl
  | some tp => exact Com.bind (hr _ _ s) fun _ _ => Com.ret rfl

theorem inheritProperties_com (a b : Addr) : Com e.at' id (inheritProperties rec a b) (inheritProperties rec' (e.sb a) (e.sb b)) s := by
  unfold inheritProperties
  refine Com.get ?_
  show Com e.at' id _ (match (objectAt (e.embed s) (e.sb a)).properties, (objectAt (e.embed s) (e.sb b)).properties with
    | none, properties => setObject (e.sb a) { objectAt (e.embed s) (e.sb a) with properties }
    | some _, none => M.ret ()
    | some i, some j => M.forEach (inheritProp rec' i) ((e.embed s).props (some j))) s
  rw [objectAt_embed, objectAt_embed]
  cases hi : (objectAt s a).properties with
  | none =>
    simp only [obj, hi]
    exact setObject_com a rfl
  | some i =>
    cases hj : (objectAt s b).properties with
    | none => simp only [obj, hi, hj]; exact Com.ret rfl
    | some j =>
      simp only [obj, hi, hj, Option.map_some]
      have h1 : (e.embed s).props (some (e.sp j)) = e.props (s.props (some j)) := props_embed e s (some j)
      rw [h1]
      exact Com.forEach (q := fun x : String × Property => (x.1, e.prop x.2)) (fun x s => inheritProp_com hr i x) _ s

theorem inheritPatternProperties_com (a b : Addr) :
    Com e.at' id (inheritPatternProperties rec a b) (inheritPatternProperties rec' (e.sb a) (e.sb b)) s := by
  unfold inheritPatternProperties
  refine Com.get ?_
  show Com e.at' id _ (match (objectAt (e.embed s) (e.sb a)).patternProperties, (objectAt (e.embed s) (e.sb b)).patternProperties with
    | none, patternProperties => setObject (e.sb a) { objectAt (e.embed s) (e.sb a) with patternProperties }
    | some _, none => M.ret ()
    | some i, some j => M.forEach (inheritPatProp rec' i) ((e.embed s).patProps (some j))) s
  rw [objectAt_embed, objectAt_embed]
  cases hi : (objectAt s a).patternProperties with
  | none =>
    simp only [obj, hi]
    exact setObject_com a rfl
  | some i =>
    cases hj : (objectAt s b).patternProperties with
    | none => simp only [obj, hi, hj]; exact Com.ret rfl
    | some j =>
      simp only [obj, hi, hj, Option.map_some]
      have h1 : (e.embed s).patProps (some (e.sq j)) = e.pats (s.patProps (some j)) := patProps_embed e s (some j)
      rw [h1]
      exact Com.forEach (q := fun x : String × PatternProperty => (x.1, e.pat x.2)) (fun x s => inheritPatProp_com hr i x) _ s

theorem inheritObject_com (a b : Addr) : Com e.at' id (inheritObject rec a b) (inheritObject rec' (e.sb a) (e.sb b)) s := by
  unfold inheritObject
  refine Com.get (Com.bind (g := e.obj) ?_ fun f s1 => Com.bind (setObject_com a rfl) fun _ s2 => Com.bind (inheritProperties_com hr a b) fun _ s3 =>
    inheritPatternProperties_com hr a b)
  refine Com.lift ?_
  show (objectAt (e.embed s) (e.sb a)).inheritOwn (objectAt (e.embed s) (e.sb b)) = _
  rw [objectAt_embed, objectAt_embed, inheritOwn_obj]

theorem inheritClone_com (t u : Addr) : Com e.at' e.sb (inheritClone rec t u) (inheritClone rec' (e.sb t) (e.sb u)) s :=
  Com.bind (m := fun h => cloneDetached (h.bases.length + 1) t h) (m' := fun h => cloneDetached (h.bases.length + 1) (e.sb t) h) (cloneOwn_com t s)
    fun c s1 => Com.bind newID_com fun id s2 => Com.bind (updBase_com c fun b => rfl) fun _ s3 => hr c u s3

theorem inheritMember_com (u : Addr) : ∀ (ts : List Addr) (s : St),
    Com e.at' (List.map e.sb) (inheritMember rec u ts) (inheritMember rec' (e.sb u) (ts.map e.sb)) s
  | [], _ => Com.ret rfl
  | t :: ts, s => by
    unfold inheritMember
    refine Com.bind (getBase_com u) fun sb' s1 => Com.bind (getBase_com t) fun tb s2 => ?_
    refine Com.ite (fun _ => ?_) fun _ => inheritMember_com u ts s2
    refine Com.bind (Com.attempt (inheritClone_com hr t u)) ?_
    intro r s3
    refine Com.bind (inheritMember_com u ts s3) ?_
    intro rest s4
    cases r <;> exact Com.ret rfl

theorem inheritMembers_com (ts : List Addr) : ∀ (us : List Addr) (s : St),
    Com e.at' (List.map e.sb) (inheritMembers rec ts us) (inheritMembers rec' (ts.map e.sb) (us.map e.sb)) s
  | [], _ => Com.ret rfl
  | u :: us, s => by
    unfold inheritMembers
    refine Com.bind (inheritMember_com hr u ts s) fun fl s1 => ?_
    simp only [List.isEmpty_map]
    split
    · exact Com.err
    · exact Com.bind (inheritMembers_com ts us s1) fun rest s2 => Com.ret (by simp)

theorem inheritUnion_com (a b : Addr) : Com e.at' id (inheritUnion rec a b) (inheritUnion rec' (e.sb a) (e.sb b)) s := by
  unfold inheritUnion
  refine Com.get ?_
  show Com e.at' id _ (if ((e.embed s).slice (unionAt (e.embed s) (e.sb a)).1).isEmpty then setShape (e.sb a) (.union (unionAt (e.embed s) (e.sb b)).1 (unionAt (e.embed s) (e.sb a)).2)
    else M.bind (inheritMembers rec' ((e.embed s).slice (unionAt (e.embed s) (e.sb a)).1) ((e.embed s).slice (unionAt (e.embed s) (e.sb b)).1)) fun l =>
      M.bind (Heap.newSlice l) fun i => setShape (e.sb a) (.union (some i) (unionAt (e.embed s) (e.sb a)).2)) s
  simp only [unionAt_embed, slice_embed, List.isEmpty_map]
  split
  · exact setShape_com a rfl
  · exact Com.bind (inheritMembers_com hr _ _ s) fun l s1 => Com.bind (newSlice_com rfl) fun i s2 => setShape_com a rfl

theorem inheritShape_com (a b : Addr) (t u : Shape) : Com e.at' id (inheritShape rec a b t u) (inheritShape rec' (e.sb a) (e.sb b) (e.shape t) (e.shape u)) s := by
  have hleaf : Com e.at' id (M.bind (M.lift (leafInherit t u)) fun r => setShape a r)
      (M.bind (M.lift (leafInherit (e.shape t) (e.shape u))) fun r => setShape (e.sb a) r) s :=
    Com.bind (Com.lift (leafInherit_shape t u)) fun r s1 => setShape_com a rfl
  cases t
  case array f => cases u <;> first | exact inheritArray_com hr a b | exact Com.err
  case object f =>
    cases u
    case object g => exact inheritObject_com hr a b
    case recursive hd =>
      refine Com.bind (getShape_com hd) fun sh s1 => ?_
      cases sh <;> first | exact inheritObject_com hr a hd | exact Com.err
    all_goals exact Com.err
  case union f g => cases u <;> first | exact inheritUnion_com hr a b | exact Com.err
  all_goals exact hleaf

theorem unionSourceLoop_com (a : Addr) : ∀ (ms : List Addr) (s : St),
    Com e.at' (Option.map (List.map e.sb)) (unionSourceLoop rec a ms) (unionSourceLoop rec' (e.sb a) (ms.map e.sb)) s
  | [], _ => Com.ret rfl
  | m :: ms, s => by
    unfold unionSourceLoop
    refine Com.bind (getBase_com m) fun mb s1 => ?_
    have key : Com e.at' (Option.map (List.map e.sb))
        (M.bind (Heap.getBase a) fun s => if mb.type = s.type then
            M.bind (M.attempt (inheritClone rec a m)) fun r => M.bind (unionSourceLoop rec a ms) fun rest =>
            match r, rest with
            | .ok c, some l => M.ret (some (c :: l))
            | .error _, some l => M.ret (some l)
            | _, none => M.ret none
          else unionSourceLoop rec a ms)
        (M.bind (Heap.getBase (e.sb a)) fun s => if mb.type = s.type then
            M.bind (M.attempt (inheritClone rec' (e.sb a) (e.sb m))) fun r => M.bind (unionSourceLoop rec' (e.sb a) (ms.map e.sb)) fun rest =>
            match r, rest with
            | .ok c, some l => M.ret (some (c :: l))
            | .error _, some l => M.ret (some l)
            | _, none => M.ret none
          else unionSourceLoop rec' (e.sb a) (ms.map e.sb)) s1 := by
      refine Com.bind (getBase_com a) fun sb' s2 => ?_
      refine Com.ite (fun _ => ?_) fun _ => unionSourceLoop_com a ms s2
      refine Com.bind (Com.attempt (inheritClone_com hr a m)) ?_
      intro r s3
      refine Com.bind (unionSourceLoop_com a ms s3) ?_
      intro rest s4
      cases r <;> cases rest <;> exact Com.ret rfl
    simp only [base]
    cases mb.shape with
    | none => exact key
    | some sh => cases sh <;> first | exact Com.ret rfl | exact key

theorem inheritUnionSource_com (a : Addr) (ms : List Addr) : Com e.at' e.sb (inheritUnionSource rec a ms) (inheritUnionSource rec' (e.sb a) (ms.map e.sb)) s := by
  unfold inheritUnionSource
  refine Com.bind (unionSourceLoop_com hr a ms s) fun r s1 => ?_
  rcases r with _ | _ | ⟨x, _ | ⟨y, l⟩⟩
  · exact Com.ret rfl
  · exact Com.err
  · exact Com.ret rfl
  · exact Com.bind (newSlice_com rfl) fun i s2 => Com.bind (updBase_com a fun b => rfl) fun _ _ => Com.ret rfl

theorem unionTargetLoop_com (a : Addr) : ∀ (ms : List Addr) (s : St), Com e.at' id (unionTargetLoop rec a ms) (unionTargetLoop rec' (e.sb a) (ms.map e.sb)) s
  | [], _ => Com.ret rfl
  | m :: ms, s => by
    unfold unionTargetLoop
    refine Com.bind (Com.attempt (hr m a s)) fun r s1 => Com.bind (unionTargetLoop_com a ms s1) fun failed s2 => ?_
    cases r <;> exact Com.ret rfl

theorem inheritUnionTarget_com (a : Addr) (ms : List Addr) : Com e.at' e.sb (inheritUnionTarget rec a ms) (inheritUnionTarget rec' (e.sb a) (ms.map e.sb)) s := by
  unfold inheritUnionTarget
  refine Com.bind (unionTargetLoop_com hr a ms s) fun r s1 => ?_
  cases r
  · exact Com.ret rfl
  · exact Com.err

theorem inheritDispatch_com (a b : Addr) : Com e.at' e.sb (inheritDispatch rec a b) (inheritDispatch rec' (e.sb a) (e.sb b)) s := by
  unfold inheritDispatch
  refine Com.bind (getBase_com a) fun x s1 => Com.bind (getBase_com b) fun src s2 => ?_
  have hs (l : Option Nat) : Com e.at' e.sb (fun h => inheritUnionSource rec a (h.slice l) h) (fun h => inheritUnionSource rec' (e.sb a) (h.slice (l.map e.ss)) h) s2 := by
    intro hi
    have := inheritUnionSource_com (s := s2) hr a (s2.slice l) hi
    rw [← slice_embed] at this
    exact this
  have ht (l : Option Nat) : Com e.at' e.sb (fun h => inheritUnionTarget rec a (h.slice l) h) (fun h => inheritUnionTarget rec' (e.sb a) (h.slice (l.map e.ss)) h) s2 := by
    intro hi
    have := inheritUnionTarget_com (s := s2) hr a (s2.slice l) hi
    rw [← slice_embed] at this
    exact this
  have hv : ∀ s, Com e.at' e.sb (M.bind (Heap.updBase b fun x => { x with visited := false }) fun _ => M.ret a)
      (M.bind (Heap.updBase (e.sb b) fun x => { x with visited := false }) fun _ => M.ret (e.sb a)) s :=
    fun s => Com.bind (updBase_com b fun b => rfl) fun _ _ => Com.ret rfl
  simp only [base]
  cases src.shape with
  | none =>
    cases x.shape with
    | none => exact Com.panic
    | some t => cases t <;> first | exact Com.panic | exact ht _
  | some u =>
    cases x.shape with
    | none => cases u <;> first | exact Com.panic | exact hs _ | exact Com.ret rfl
    | some t =>
      cases u <;> cases t <;> first | exact Com.ret rfl | exact hs _ | exact ht _ | exact Com.bind (inheritShape_com (s := s2) hr a b _ _) (fun _ s => hv s) |
        exact Com.bind (inheritUnion_com (s := s2) hr a b) (fun _ s => hv s)

end

theorem inheritFacet_com (i : Nat) (kv : String × GoVal) : Com e.at' id (inheritFacet i kv) (inheritFacet (e.sf i) kv) s := by
  unfold Com inheritFacet
  have h1 : (e.embed s).facetMap (some (e.sf i)) = s.facetMap (some i) := facetMap_embed e s (some i)
  simp only [show e.at'.map s = e.embed s from rfl, h1]
  cases OMap.get (s.facetMap (some i)) kv.1 with
  | some _ => exact fun hi => ⟨rfl, hi⟩
  | none => exact setFacet_com i kv.1 kv.2

theorem inheritFacets_com (a b : Addr) : Com e.at' id (inheritFacets a b) (inheritFacets (e.sb a) (e.sb b)) s := by
  unfold inheritFacets
  refine Com.bind (getBase_com a) fun x s1 => Com.bind (getBase_com b) fun src s2 => ?_
  simp only [base]
  cases hx : x.facets with
  | none => exact updBase_com a fun b => rfl
  | some i =>
    cases hy : src.facets with
    | none => exact Com.ret rfl
    | some j =>
      intro hi
      have h1 : (e.embed s2).facetMap (some (e.sf j)) = s2.facetMap (some j) := facetMap_embed e s2 (some j)
      have := Com.forEach (φ := e.at') (q := id) (f := inheritFacet i) (f' := inheritFacet (e.sf i)) (fun x s => inheritFacet_com i x) (s2.facetMap (some j)) s2 hi
      rw [List.map_id] at this
      show M.forEach (inheritFacet (e.sf i)) ((e.embed s2).facetMap (some (e.sf j))) (e.embed s2) = _ ∧ _
      rw [h1]
      exact this

theorem inherit_com : ∀ (n : Nat) (a b : Addr) (s : St), Com e.at' e.sb (inherit n a b) (inherit n (e.sb a) (e.sb b)) s
  | 0, _, _, _ => Com.diverge
  | n + 1, a, b, s => by
    unfold inherit
    refine Com.bind (getBase_com a) fun _ s1 => Com.bind (getBase_com b) fun src s2 => ?_
    refine Com.ite (fun _ => Com.ret rfl) fun _ => ?_
    refine Com.bind (g := id) (updBase_com b fun b => rfl) ?_
    intro _ s3
    refine Com.bind (g := id) (updBase_com a fun b => rfl) ?_
    intro _ s4
    refine Com.bind (inheritFacets_com a b) ?_
    intro _ s5
    exact inheritDispatch_com (fun a b s => inherit_com n a b s) a b

theorem aliasTo_com (a b : Addr) : Com e.at' e.sb (aliasTo a b) (aliasTo (e.sb a) (e.sb b)) s := by
  unfold aliasTo
  exact Com.bind (getShape_com a) fun t s1 => Com.bind (getShape_com b) fun u s2 => Com.bind (Com.lift (aliasShape_shape t u)) fun sh s3 =>
    Com.bind (setShape_com a rfl) fun _ s4 => Com.bind (getBase_com b) fun src s5 => Com.bind (updBase_com a fun b => rfl) fun _ _ => Com.ret rfl

end GoRaml.Emb.Place
