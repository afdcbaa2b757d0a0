import Verif.Model.Mark


/-!
# More fuel changes nothing once a computation has come to an end
-/

namespace GoRaml.Fuel

open GoRaml

variable {σ α β : Type}

/-- `m'` does what `m` does from `s`, if `m` comes to an end. -/
def At (m m' : M σ α) (s : σ) : Prop := (m s).1 ≠ .diverge → m' s = m s

theorem At.rfl {m : M σ α} {s : σ} : At m m s := fun _ => Eq.refl _

theorem At.diverge {m' : M σ α} {s : σ} : At M.diverge m' s := fun h => absurd (Eq.refl _) h

theorem At.bind {m m' : M σ α} {f f' : α → M σ β} {s : σ} (h : At m m' s) (hf : ∀ x s', At (f x) (f' x) s') :
    At (M.bind m f) (M.bind m' f') s := by
  intro hd
  unfold M.bind at hd ⊢
  cases hm : m s with
  | mk o s' =>
    have h1 := h (by rw [hm]; intro e; rw [hm] at hd; simp only at e; rw [e] at hd; exact hd (Eq.refl _))
    rw [h1, hm]
    rw [hm] at hd
    cases o with
    | ok x => exact hf x s' hd
    | _ => exact Eq.refl _

theorem At.attempt {m m' : M σ α} {s : σ} (h : At m m' s) : At (M.attempt m) (M.attempt m') s := by
  intro hd
  unfold M.attempt at hd ⊢
  cases hm : m s with
  | mk o s' =>
    have h1 := h (by rw [hm]; intro e; rw [hm] at hd; simp only at e; rw [e] at hd; exact hd (Eq.refl _))
    rw [h1, hm]

theorem At.get {f f' : σ → M σ α} {s : σ} (h : At (f s) (f' s) s) : At (M.bind M.get f) (M.bind M.get f') s := h

theorem At.forEach {f f' : α → M σ Unit} (h : ∀ x s, At (f x) (f' x) s) : ∀ (l : List α) (s : σ), At (M.forEach f l) (M.forEach f' l) s
  | [], _ => .rfl
  | x :: xs, s => (h x s).bind fun _ s' => At.forEach h xs s'

theorem At.collect {f f' : α → M σ β} (h : ∀ x s, At (f x) (f' x) s) : ∀ (l : List α) (s : σ), At (M.collect f l) (M.collect f' l) s
  | [], _ => .rfl
  | x :: xs, s => (h x s).bind fun _ s' => (At.collect h xs s').bind fun _ _ => .rfl

theorem At.optM {f f' : α → M σ β} (h : ∀ x s, At (f x) (f' x) s) (o : Option α) (s : σ) : At (GoRaml.optM f o) (GoRaml.optM f' o) s := by
  cases o with
  | none => exact .rfl
  | some a => exact (h a s).bind fun _ _ => .rfl

theorem At.whenSome {f f' : α → M σ Unit} (h : ∀ x s, At (f x) (f' x) s) (o : Option α) (s : σ) : At (GoRaml.whenSome o f) (GoRaml.whenSome o f') s := by
  cases o with
  | none => exact .rfl
  | some a => exact h a s

/-! ## Cloning -/

section
variable {rec rec' : Addr → M CSt Addr} (hr : ∀ a t, At (rec a) (rec' a) t)
include hr

theorem cloneProps_at (ps : OMap Property) (t : CSt) : At (cloneProps rec ps) (cloneProps rec' ps) t :=
  .collect (fun x t => (hr _ t).bind fun _ _ => .rfl) ps t

theorem clonePatProps_at (ps : OMap PatternProperty) (t : CSt) : At (clonePatProps rec ps) (clonePatProps rec' ps) t :=
  .collect (fun x t => (hr _ t).bind fun _ _ => .rfl) ps t

theorem clonePropMap_at (i : Nat) (t : CSt) : At (clonePropMap rec i) (clonePropMap rec' i) t :=
  (cloneProps_at hr (t.h.props (some i)) t).bind fun _ _ => .rfl

theorem clonePatPropMap_at (i : Nat) (t : CSt) : At (clonePatPropMap rec i) (clonePatPropMap rec' i) t :=
  (clonePatProps_at hr (t.h.patProps (some i)) t).bind fun _ _ => .rfl

theorem cloneSlice_at (i : Option Nat) (t : CSt) : At (cloneSlice rec i) (cloneSlice rec' i) t :=
  (At.collect hr (t.h.slice i) t).bind fun _ _ => .rfl

theorem cloneShape_at (s : Shape) (t : CSt) : At (cloneShape rec s) (cloneShape rec' s) t := by
  cases s with
  | array f => exact (At.optM hr f.items t).bind fun _ _ => .rfl
  | object f =>
    exact (At.optM (clonePropMap_at hr) f.properties t).bind fun _ t' => (At.optM (clonePatPropMap_at hr) f.patternProperties t').bind fun _ _ => .rfl
  | union l e => exact (cloneSlice_at hr l t).bind fun _ _ => .rfl
  | _ => exact .rfl

theorem cloneLink_at (i : Nat) (t : CSt) : At (cloneLink rec i) (cloneLink rec' i) t := by
  unfold At cloneLink
  cases t.h.dts[i]? with
  | none => exact fun _ => rfl
  | some d =>
    cases hd : d.shape with
    | none => exact fun _ => by simp only [hd]
    | some a => simp only [hd]; exact (hr a t).bind fun _ _ => .rfl

theorem cloneFill_at (s : Base) (c : Addr) (t : CSt) : At (cloneFill rec s c) (cloneFill rec' s c) t := by
  refine At.bind .rfl fun _ t1 => At.bind ((cloneProps_at hr (t1.h.props s.facetDefs) t1).bind fun _ _ => .rfl) fun _ t2 =>
    (At.optM hr _ t2).bind fun _ t3 => (At.optM (fun i t => cloneSlice_at hr (some i) t) _ t3).bind fun _ t4 =>
    (At.optM (cloneLink_at hr) _ t4).bind fun _ t5 => ?_
  cases s.shape with
  | none => exact .rfl
  | some sh => exact (cloneShape_at hr sh t5).bind fun _ _ => .rfl

end

theorem clone_at : ∀ (n m : Nat), n ≤ m → ∀ (a : Addr) (t : CSt), At (clone n a) (clone m a) t
  | 0, _, _, _, _ => .diverge
  | n + 1, 0, h, _, _ => absurd h (by omega)
  | n + 1, m + 1, h, a, t => by
    unfold clone
    refine At.bind .rfl fun s t1 => At.get ?_
    cases memoGet t1.memo s.id with
    | some c => exact .rfl
    | none => exact At.bind .rfl fun _ _ => At.bind .rfl fun _ t3 => cloneFill_at (fun a t => clone_at n m (by omega) a t) s _ t3

theorem cloneDetached_at {n m : Nat} (h : n ≤ m) (a : Addr) (s : St) : At (cloneDetached n a) (cloneDetached m a) s := by
  intro hd
  have := clone_at n m h a ⟨s, []⟩ hd
  simp only [cloneDetached, this]

/-! ## Inheritance -/

section
variable {rec rec' : Addr → Addr → M St Addr} (hr : ∀ a b s, At (rec a b) (rec' a b) s)
include hr

theorem inheritArray_at (a b : Addr) (s : St) : At (inheritArray rec a b) (inheritArray rec' a b) s := by
  refine At.get (At.bind ?_ fun _ _ => .rfl)
  split
  · exact .rfl
  · exact (hr _ _ s).bind fun _ _ => .rfl
  · exact .rfl

theorem inheritProp_at (i : Nat) (kp : String × Property) (s : St) : At (inheritProp rec i kp) (inheritProp rec' i kp) s := by
  refine At.get ?_
  cases OMap.get (s.props (some i)) kp.1 with
  | none => exact .rfl
  | some tp =>
    simp only
    split
    · exact .rfl
    · exact (hr _ _ s).bind fun _ _ => .rfl

theorem inheritPatProp_at (i : Nat) (kp : String × PatternProperty) (s : St) : At (inheritPatProp rec i kp) (inheritPatProp rec' i kp) s := by
  refine At.get ?_
  cases OMap.get (s.patProps (some i)) kp.1 with
  | none => exact .rfl
  | some tp => exact (hr _ _ s).bind fun _ _ => .rfl

theorem inheritProperties_at (a b : Addr) (s : St) : At (inheritProperties rec a b) (inheritProperties rec' a b) s := by
  refine At.get ?_
  split
  · exact .rfl
  · exact .rfl
  · exact At.forEach (fun x s => inheritProp_at hr _ x s) _ s

theorem inheritPatternProperties_at (a b : Addr) (s : St) : At (inheritPatternProperties rec a b) (inheritPatternProperties rec' a b) s := by
  refine At.get ?_
  split
  · exact .rfl
  · exact .rfl
  · exact At.forEach (fun x s => inheritPatProp_at hr _ x s) _ s

theorem inheritObject_at (a b : Addr) (s : St) : At (inheritObject rec a b) (inheritObject rec' a b) s :=
  At.get (At.bind .rfl fun _ _ => At.bind .rfl fun _ s2 => (inheritProperties_at hr a b s2).bind fun _ s3 => inheritPatternProperties_at hr a b s3)

theorem inheritClone_at (t s : Addr) (h : St) : At (inheritClone rec t s) (inheritClone rec' t s) h :=
  At.get (At.bind .rfl fun _ _ => At.bind .rfl fun _ _ => At.bind .rfl fun _ h3 => hr _ _ h3)

theorem inheritMember_at (source : Addr) : ∀ (ts : List Addr) (s : St), At (inheritMember rec source ts) (inheritMember rec' source ts) s
  | [], _ => .rfl
  | t :: ts, s => by
    unfold inheritMember
    refine At.bind .rfl fun sb s1 => At.bind .rfl fun tb s2 => ?_
    split
    · exact (inheritClone_at hr t source s2).attempt.bind fun _ s3 => (inheritMember_at source ts s3).bind fun _ _ => .rfl
    · exact inheritMember_at source ts s2

theorem inheritMembers_at (targets : List Addr) : ∀ (ss : List Addr) (s : St), At (inheritMembers rec targets ss) (inheritMembers rec' targets ss) s
  | [], _ => .rfl
  | x :: ss, s => by
    unfold inheritMembers
    refine (inheritMember_at hr x targets s).bind fun _ s1 => ?_
    split
    · exact .rfl
    · exact (inheritMembers_at targets ss s1).bind fun _ _ => .rfl

theorem inheritUnion_at (a b : Addr) (s : St) : At (inheritUnion rec a b) (inheritUnion rec' a b) s := by
  refine At.get ?_
  simp only
  split
  · exact .rfl
  · exact (inheritMembers_at hr _ _ s).bind fun _ _ => .rfl

theorem inheritShape_at (a b : Addr) (t u : Shape) (s : St) : At (inheritShape rec a b t u) (inheritShape rec' a b t u) s := by
  unfold inheritShape
  split
  · exact inheritArray_at hr a b s
  · exact inheritObject_at hr a b s
  · refine At.bind .rfl fun sh s1 => ?_
    cases sh with
    | object f => exact inheritObject_at hr a _ s1
    | _ => exact .rfl
  · exact inheritUnion_at hr a b s
  all_goals exact .rfl

theorem unionSourceLoop_at (a : Addr) : ∀ (ms : List Addr) (s : St), At (unionSourceLoop rec a ms) (unionSourceLoop rec' a ms) s
  | [], _ => .rfl
  | m :: ms, s => by
    unfold unionSourceLoop
    refine At.bind .rfl fun mb s1 => ?_
    split
    · exact .rfl
    · refine At.bind .rfl fun sb s2 => ?_
      split
      · exact (inheritClone_at hr a m s2).attempt.bind fun _ s3 => (unionSourceLoop_at a ms s3).bind fun _ _ => .rfl
      · exact unionSourceLoop_at a ms s2

theorem unionTargetLoop_at (a : Addr) : ∀ (ms : List Addr) (s : St), At (unionTargetLoop rec a ms) (unionTargetLoop rec' a ms) s
  | [], _ => .rfl
  | m :: ms, s => (hr m a s).attempt.bind fun _ s1 => (unionTargetLoop_at a ms s1).bind fun _ _ => .rfl

theorem inheritDispatch_at (a b : Addr) (s : St) : At (inheritDispatch rec a b) (inheritDispatch rec' a b) s := by
  unfold inheritDispatch
  refine At.bind .rfl fun x s1 => At.bind .rfl fun src s2 => ?_
  have hs (l) : At (fun h => inheritUnionSource rec a (h.slice l) h) (fun h => inheritUnionSource rec' a (h.slice l) h) s2 :=
    (unionSourceLoop_at hr a (s2.slice l) s2).bind fun _ _ => .rfl
  have ht (l) : At (fun h => inheritUnionTarget rec a (h.slice l) h) (fun h => inheritUnionTarget rec' a (h.slice l) h) s2 :=
    (unionTargetLoop_at hr a (s2.slice l) s2).bind fun _ _ => .rfl
  cases src.shape with
  | none =>
    cases x.shape with
    | none => exact .rfl
    | some t => cases t <;> first | exact .rfl | exact ht _
  | some u =>
    cases x.shape with
    | none => cases u <;> first | exact .rfl | exact hs _
    | some t =>
      cases u <;> cases t <;> first | exact .rfl | exact hs _ | exact ht _ | exact (inheritUnion_at hr a b s2).bind fun _ _ => .rfl | exact (inheritShape_at hr a b _ _ s2).bind fun _ _ => .rfl

end

theorem inherit_at : ∀ (n m : Nat), n ≤ m → ∀ (a b : Addr) (s : St), At (inherit n a b) (inherit m a b) s
  | 0, _, _, _, _, _ => .diverge
  | n + 1, 0, h, _, _, _ => absurd h (by omega)
  | n + 1, m + 1, h, a, b, s => by
    unfold inherit
    refine At.bind .rfl fun _ s1 => At.bind .rfl fun src s2 => ?_
    split
    · exact .rfl
    · exact At.bind .rfl fun _ _ => At.bind .rfl fun _ _ => At.bind .rfl fun _ s5 =>
        inheritDispatch_at (fun a b s => inherit_at n m (by omega) a b s) a b s5

/-! ## Unwrapping -/

section
variable {rec rec' : Addr → M St Addr} (hr : ∀ a s, At (rec a) (rec' a) s)
include hr

theorem unwrapProps_at (i : Nat) : ∀ (n m : Nat), n ≤ m → ∀ (k : Nat) (s : St), At (unwrapProps rec i n k) (unwrapProps rec' i m k) s
  | 0, _, _, _, _ => .diverge
  | n + 1, 0, h, _, _ => absurd h (by omega)
  | n + 1, m + 1, h, k, s => by
    unfold At unwrapProps
    cases (s.props (some i))[k]? with
    | none => exact fun _ => rfl
    | some kp => exact (hr _ s).bind fun _ _ => At.bind .rfl fun _ s2 => unwrapProps_at i n m (by omega) (k + 1) s2

theorem unwrapPatProps_at (i : Nat) : ∀ (n m : Nat), n ≤ m → ∀ (k : Nat) (s : St), At (unwrapPatProps rec i n k) (unwrapPatProps rec' i m k) s
  | 0, _, _, _, _ => .diverge
  | n + 1, 0, h, _, _ => absurd h (by omega)
  | n + 1, m + 1, h, k, s => by
    unfold At unwrapPatProps
    cases (s.patProps (some i))[k]? with
    | none => exact fun _ => rfl
    | some kp => exact (hr _ s).bind fun _ _ => At.bind .rfl fun _ s2 => unwrapPatProps_at i n m (by omega) (k + 1) s2

theorem unwrapMembers_at (i : Nat) : ∀ (n m : Nat), n ≤ m → ∀ (k : Nat) (s : St), At (unwrapMembers rec i n k) (unwrapMembers rec' i m k) s
  | 0, _, _, _, _ => .diverge
  | n + 1, 0, h, _, _ => absurd h (by omega)
  | n + 1, m + 1, h, k, s => by
    unfold At unwrapMembers
    cases (s.slice (some i))[k]? with
    | none => exact fun _ => rfl
    | some kp => exact (hr _ s).bind fun _ _ => At.bind .rfl fun _ s2 => unwrapMembers_at i n m (by omega) (k + 1) s2

theorem unwrapTarget_at {n m : Nat} (h : n ≤ m) (a : Addr) (s : St) : At (unwrapTarget rec n a) (unwrapTarget rec' m a) s := by
  refine At.get ?_
  unfold unwrapTargetShape
  split
  · exact At.whenSome (fun x s => (hr x s).bind fun _ _ => .rfl) _ s
  · exact (At.whenSome (fun i s => unwrapProps_at hr i n m h 0 s) _ s).bind fun _ s1 =>
      At.whenSome (fun i s => unwrapPatProps_at hr i n m h 0 s) (objectAt s1 a).patternProperties s1
  · exact At.whenSome (fun i s => unwrapMembers_at hr i n m h 0 s) _ s
  · exact .rfl

theorem unwrapMoreParents_at {n m : Nat} (h : n ≤ m) (ss : Addr) (i : Nat) : ∀ (left k : Nat) (s : St),
    At (unwrapMoreParents rec n ss i left k) (unwrapMoreParents rec' m ss i left k) s
  | 0, _, _ => .rfl
  | left + 1, k, s => by
    unfold At unwrapMoreParents
    cases (s.slice (some i))[k]? with
    | none => exact fun _ => rfl
    | some p =>
      exact (hr p s).bind fun us s1 => (inherit_at n m h ss us s1).bind fun _ _ => At.bind .rfl fun _ s3 => unwrapMoreParents_at h ss i left (k + 1) s3

theorem unwrapParents_at {n m : Nat} (h : n ≤ m) (a : Addr) (s : St) : At (unwrapParents rec n a) (unwrapParents rec' m a) s := by
  unfold unwrapParents
  refine At.bind .rfl fun b s1 => ?_
  unfold At
  simp only
  cases b.link with
  | some d =>
    cases hx : (s1.dts[d]?).bind (·.shape) with
    | none => exact fun _ => by simp only [hx]
    | some x => simp only [hx]; exact (hr x s1).bind fun _ _ => .rfl
  | none =>
    simp only
    split
    · exact (hr _ s1).bind fun ss _ => At.bind .rfl fun _ s3 => (unwrapMoreParents_at hr h ss _ _ 1 s3).bind fun _ _ => .rfl
    · exact fun _ => rfl

theorem unwrapFacetDefs_at (a : Addr) (i : Nat) : ∀ (n m : Nat), n ≤ m → ∀ (k : Nat) (s : St),
    At (unwrapFacetDefs rec a i n k) (unwrapFacetDefs rec' a i m k) s
  | 0, _, _, _, _ => .diverge
  | n + 1, 0, h, _, _ => absurd h (by omega)
  | n + 1, m + 1, h, k, s => by
    unfold At unwrapFacetDefs
    cases (s.props (some i))[k]? with
    | none => exact fun _ => rfl
    | some kp =>
      exact (hr _ s).bind fun us s1 => At.bind .rfl fun _ _ => At.bind .rfl fun _ _ => At.bind .rfl fun _ _ => At.bind .rfl fun _ s5 =>
        unwrapFacetDefs_at a i n m (by omega) (k + 1) s5

end

theorem unwrapFinish_at {n m : Nat} (h : n ≤ m) (a : Addr) (o : Option Addr) (s : St) : At (unwrapFinish n a o) (unwrapFinish m a o) s := by
  unfold unwrapFinish
  refine At.bind ?_ fun _ _ => .rfl
  cases o with
  | none => exact .rfl
  | some x => exact inherit_at n m h a x s

theorem unwrap_at : ∀ (n m : Nat), n ≤ m → ∀ (a : Addr) (s : St), At (unwrap n a) (unwrap m a) s
  | 0, _, _, _, _ => .diverge
  | n + 1, 0, h, _, _ => absurd h (by omega)
  | n + 1, m + 1, h, a, s => by
    have hr : ∀ a s, At (unwrap n a) (unwrap m a) s := fun a s => unwrap_at n m (by omega) a s
    have hnm : n ≤ m := by omega
    unfold unwrap
    refine At.bind .rfl fun b s1 => ?_
    split
    · exact .rfl
    · split
      · exact .rfl
      · refine At.bind .rfl fun _ s2 => ?_
        split
        · exact (hr _ s2).bind fun _ _ => .rfl
        · exact (unwrapParents_at hr hnm a s2).bind fun src s3 => (unwrapTarget_at hr hnm a s3).bind fun _ s4 => At.bind .rfl fun b' s5 =>
            (At.whenSome (fun i s => unwrapFacetDefs_at hr a i n m hnm 0 s) _ s5).bind fun _ s6 => unwrapFinish_at hnm a src s6

/-! ## Marking -/

section
variable {rec rec' : Addr → M St (Option Addr)} (hr : ∀ a s, At (rec a) (rec' a) s)
include hr

theorem markProp_at (i k : Nat) (s : St) : At (markProp rec i k) (markProp rec' i k) s := by
  unfold At markProp
  cases (s.props (some i))[k]? with
  | none => exact fun _ => rfl
  | some kp => exact (hr _ s).bind fun _ _ => .rfl

theorem markPatProp_at (i k : Nat) (s : St) : At (markPatProp rec i k) (markPatProp rec' i k) s := by
  unfold At markPatProp
  cases (s.patProps (some i))[k]? with
  | none => exact fun _ => rfl
  | some kp => exact (hr _ s).bind fun _ _ => .rfl

theorem markMember_at (i k : Nat) (s : St) : At (markMember rec i k) (markMember rec' i k) s := by
  unfold At markMember
  cases (s.slice (some i))[k]? with
  | none => exact fun _ => rfl
  | some kp => exact (hr _ s).bind fun _ _ => .rfl

theorem markProps_at (i : Nat) (s : St) : At (markProps rec i) (markProps rec' i) s := At.forEach (fun k s => markProp_at hr i k s) _ s

theorem markPatProps_at (i : Nat) (s : St) : At (markPatProps rec i) (markPatProps rec' i) s := At.forEach (fun k s => markPatProp_at hr i k s) _ s

theorem markMembers_at (i : Nat) (s : St) : At (markMembers rec i) (markMembers rec' i) s := At.forEach (fun k s => markMember_at hr i k s) _ s

theorem markShape_at (a : Addr) (o : Option Shape) (s : St) : At (markShape rec a o) (markShape rec' a o) s := by
  unfold markShape
  split
  · exact At.whenSome (fun x s => (hr x s).bind fun _ _ => .rfl) _ s
  · exact (At.whenSome (fun i s => markProps_at hr i s) _ s).bind fun _ s1 => At.whenSome (fun i s => markPatProps_at hr i s) _ s1
  · exact At.whenSome (fun i s => markMembers_at hr i s) _ s
  · exact .rfl

end

theorem mark_at : ∀ (n m : Nat), n ≤ m → ∀ (a : Addr) (s : St), At (mark n a) (mark m a) s
  | 0, _, _, _, _ => .diverge
  | n + 1, 0, h, _, _ => absurd h (by omega)
  | n + 1, m + 1, h, a, s => by
    have hr : ∀ a s, At (mark n a) (mark m a) s := fun a s => mark_at n m (by omega) a s
    unfold mark
    refine At.bind .rfl fun b s1 => ?_
    split
    · exact .rfl
    · split
      · exact .rfl
      · exact At.bind .rfl fun _ s2 => (markShape_at hr a _ s2).bind fun _ _ => At.bind .rfl fun _ s4 =>
          (At.whenSome (fun i s => markProps_at hr i s) _ s4).bind fun _ _ => .rfl

end GoRaml.Fuel
