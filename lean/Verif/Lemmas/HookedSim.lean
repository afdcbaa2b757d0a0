import Verif.Lemmas.Files
import Verif.Lemmas.HookedQuiet

/-!
# Hooks that let pass what others let pass
-/

namespace GoRaml.Hooked

open GoRaml GoRaml.Files

/-- The hooks of inheritance. -/
def inheritKeys : List String := ["BaseShape.Inherit", "BaseShape.inheritUnionSource", "BaseShape.inheritUnionTarget"]

/-- `H'` lets pass what `H` lets pass; on inheritance they agree. -/
structure Weaker (H H' : HookFn) : Prop where
  passes : ∀ key args h, H key args h = .ok () → H' key args h = .ok ()
  inherits : ∀ key ∈ inheritKeys, H key = H' key

variable {H H' : HookFn} (hw : Weaker H H')
include hw

theorem runHooks_sim (key : String) (args : List HookArg) (s : St) : Sim true (runHooks H key args) (runHooks H' key args) s := by
  rintro ⟨u, hu⟩
  have hu : H key args s = .ok () := hu
  simp only [runHooks, hu, hw.passes _ _ _ hu]

theorem runHooksV_sim (key : String) (args : List HookArg) (s : VSt) : Sim true (runHooksV H key args) (runHooksV H' key args) s := by
  rintro ⟨u, hu⟩
  have hu : H key _ s.h = .ok () := hu
  simp only [runHooksV, hu, hw.passes _ _ _ hu]

theorem hook_le (key : String) (args : List HookArg) (h : St) : Le true (H key args h) (H' key args h) := by
  rintro ⟨u, hu⟩
  rw [hu, hw.passes _ _ _ hu]

/-! ## Parsing -/

omit hw in
theorem same_files (E : Env) : More true E E.file := fun _ => .rfl

section
variable {E : Env} {c c' : Calls} (hc : CSim true c c')
include hc

theorem makeConcreteH_sim (a : Addr) (t : String) (fs : Option (List YNode)) (s : St) : Sim true (makeConcreteH H E c a t fs) (makeConcreteH H' E c' a t fs) s :=
  (runHooks_sim hw _ _ s).bind fun _ s1 => makeConcrete_sim (same_files E) hc a t fs s1

theorem finishShapeH_sim (a : Addr) (t : String) (fs : Option (List YNode)) (s : St) : Sim true (finishShapeH H E c a t fs) (finishShapeH H' E c' a t fs) s :=
  (makeConcreteH_sim hw hc a t fs s).bind fun _ _ => .rfl

theorem makeNewShapeYAMLH_sim (v : YNode) (name loc : String) (s : St) :
    Sim true (makeNewShapeYAMLH H E c v name loc) (makeNewShapeYAMLH H' E c' v name loc) s := by
  refine (runHooks_sim hw _ _ s).bind fun _ s0 => Sim.rfl.bind fun a s1 => (decode_sim (same_files E) hc a loc v s1).bind fun r s2 => ?_
  cases r.1 with
  | none => exact Sim.rfl.bind fun _ s3 => finishShapeH_sim hw hc _ _ _ s3
  | some t =>
    refine (makeShapeType_sim (E := E) (f := E.file) hc t r.2 name loc a s2).bind fun st s3 => ?_
    cases st with
    | none => exact .rfl
    | some u => exact finishShapeH_sim hw hc _ _ _ s3

end

theorem callsH_sim (E : Env) : ∀ n, CSim true (callsH H E n) (callsH H' E n)
  | 0 => ⟨fun _ _ _ _ => .rfl, fun _ _ => .rfl, fun _ _ => .rfl⟩
  | n + 1 =>
    have hc := callsH_sim E n
    ⟨makeNewShapeYAMLH_sim hw hc, fun p s => (runHooks_sim hw _ _ s).bind fun _ s1 => parseDataType_sim (same_files E) hc p s1,
      parseLibrary_sim (same_files E) hc⟩

section
variable {E : Env} {c c' : Calls} (hc : CSim true c c')
include hc

theorem makeNewShapeH_sim (name t loc : String) (s : St) : Sim true (makeNewShapeH H E c name t loc) (makeNewShapeH H' E c' name t loc) s :=
  Sim.rfl.bind fun _ s1 => (makeConcreteH_sim hw hc _ _ _ s1).bind fun _ _ => .rfl

variable {rec rec' : Addr → M St Unit} (hr : ∀ a s, Sim true (rec a) (rec' a) s)
include hr

theorem visitReferenceH_sim (text : String) (a : Addr) (fs : Option (List YNode)) (s : St) :
    Sim true (visitReferenceH H E c rec text a fs) (visitReferenceH H' E c' rec' text a fs) s := by
  refine Sim.rfl.bind fun target s1 => ?_
  exact Sim.at (f := fun h => M.bind (M.lift (getReferenced h Lib.types text target.location)) _)
    (f' := fun h => M.bind (M.lift (getReferenced h Lib.types text target.location)) _)
    (Sim.rfl.bind fun ref s2 => Sim.rfl.bind fun rb s3 => .ite .rfl ((hr ref s3).bind fun _ _ => Sim.rfl.bind fun _ s5 =>
      (makeConcreteH_sim hw hc _ _ _ s5).bind fun _ _ => .rfl))

omit hr in
theorem lastH_sim {g g' : Addr → Option (List YNode) → M St Unit} (hg : ∀ a fs s, Sim true (g a fs) (g' a fs) s) :
    VSim true (.lastH H E c g) (.lastH H' E c' g') :=
  ⟨hg, fun _ s => (makeNewShapeH_sim hw hc _ _ _ s).bind fun _ s1 => (hg _ _ s1).bind fun _ _ => .rfl⟩

theorem visitorH_sim : ∀ t : Rdt, VSim true (visitorH H E c rec t) (visitorH H' E c' rec' t)
  | .prim _ => lastH_sim hw hc fun _ _ s => makeConcreteH_sim hw hc _ _ _ s
  | .ref _ _ => lastH_sim hw hc fun _ _ s => visitReferenceH_sim hw hc hr _ _ _ s
  | .group e => lastH_sim hw hc (visitorH_sim e).at_
  | .optional e => lastH_sim hw hc fun _ _ s => Sim.rfl.bind fun _ s1 => (makeConcreteH_sim hw hc _ _ _ s1).bind fun _ s2 =>
      (makeNewShapeH_sim hw hc _ _ _ s2).bind fun _ s3 => ((visitorH_sim e).at_ _ _ s3).bind fun _ s4 =>
      (makeNewShapeH_sim hw hc _ _ _ s4).bind fun _ _ => .rfl
  | .array e => lastH_sim hw hc fun _ _ s => Sim.rfl.bind fun _ s1 => (makeConcreteH_sim hw hc _ _ _ s1).bind fun _ s2 =>
      (makeNewShapeH_sim hw hc _ _ _ s2).bind fun _ s3 => ((visitorH_sim e).at_ _ _ s3).bind fun _ _ => .rfl
  | .union l r => by
    have hm : ∀ loc s, Sim true ((visitorH H E c rec (.union l r)).members loc) ((visitorH H' E c' rec' (.union l r)).members loc) s :=
      fun loc s => (makeNewShapeH_sim hw hc _ _ _ s).bind fun _ s1 => ((visitorH_sim l).at_ _ _ s1).bind fun _ s2 =>
        ((visitorH_sim r).members loc s2).bind fun _ _ => .rfl
    exact ⟨fun _ _ s => Sim.rfl.bind fun _ s1 => (makeConcreteH_sim hw hc _ _ _ s1).bind fun _ s2 => (hm _ s2).bind fun _ _ => .rfl, hm⟩

theorem resolveStepH_sim (a : Addr) (s : St) : Sim true (resolveStepH H E c rec a) (resolveStepH H' E c' rec' a) s := by
  refine Sim.rfl.bind fun b s1 => ?_
  cases b.shape with
  | none => exact .rfl
  | some sh =>
    cases sh with
    | unknown fs =>
      simp only
      cases b.link with
      | some dt =>
        show Sim true (resolveLinkH H E c rec a dt fs) (resolveLinkH H' E c' rec' a dt fs) s1
        unfold Sim resolveLinkH
        cases (s1.dts[dt]?).bind (·.shape) with
        | none => exact fun _ => Eq.refl _
        | some l => exact (hr l s1).bind fun _ _ => Sim.rfl.bind fun _ s3 => makeConcreteH_sim hw hc _ _ _ s3
      | none =>
        refine .ite (Sim.rfl.bind fun b s2 => ?_) ?_
        · refine Sim.at (f := fun h => M.bind (M.forEach rec (h.slice b.inherits)) _)
            (f' := fun h => M.bind (M.forEach rec' (h.slice b.inherits)) _) ((Sim.forEach hr _ s2).bind fun _ s3 => ?_)
          cases (s2.slice b.inherits).head? with
          | none => exact .rfl
          | some i => exact Sim.rfl.bind fun _ s4 => makeConcreteH_sim hw hc _ _ _ s4
        · cases parseTypeExpression b.type with
          | none => exact .rfl
          | some tree => exact (visitorH_sim hw hc hr tree).at_ _ _ s1
    | _ => exact .rfl

end

theorem resolveShapeH_sim (E : Env) : ∀ (n : Nat) (a : Addr) (s : St), Sim true (resolveShapeH H E n a) (resolveShapeH H' E n a) s
  | 0, _, _ => .rfl
  | n + 1, a, s => resolveStepH_sim hw (callsH_sim hw E n) (resolveShapeH_sim E n) a s

omit hw in
theorem resolveLoopH_false {E : Env} {n : Nat} : ∀ (m : Nat) (s : St) (u : Unit), (resolveLoopH H E n m false s).1 ≠ .ok u
  | m, s, u => by
    unfold resolveLoopH
    cases hu : s.unresolved with
    | nil => simp
    | cons a l =>
      cases m with
      | zero => simp
      | succ m =>
        simp only [M.bind, M.attempt, M.modify]
        cases hm : resolveShapeH H E n a s with
        | mk o s1 =>
          cases o with
          | ok _ => simpa using resolveLoopH_false m _ u
          | err _ => simpa using resolveLoopH_false m _ u
          | panic _ => simp
          | diverge => simp

theorem resolveLoopH_sim (E : Env) (n : Nat) : ∀ (m : Nat) (good : Bool) (s : St), Sim true (resolveLoopH H E n m good) (resolveLoopH H' E n m good) s
  | m, good, s => by
    unfold Sim resolveLoopH
    cases hu : s.unresolved with
    | nil => exact fun _ => Eq.refl _
    | cons a l =>
      cases m with
      | zero => exact fun h => (Fin.not_diverge h).elim
      | succ m =>
        have ih := resolveLoopH_sim E n m
        intro hd
        have hs := resolveShapeH_sim hw E n a s
        unfold Sim at hs
        simp only [M.bind, M.attempt, M.modify] at hd ⊢
        cases hm : resolveShapeH H E n a s with
        | mk o s1 =>
          rw [hm] at hs hd
          obtain ⟨u, hd⟩ := hd
          cases o with
          | ok u =>
            rw [hs (.ok u)]
            exact ih _ _ ⟨_, hd⟩
          | err e =>
            exfalso
            simp only [Bool.and_false] at hd
            exact resolveLoopH_false m _ u hd
          | panic e => cases hd
          | diverge => cases hd

theorem decodeEntryH_sim (E : Env) (n : Nat) (text path : String) (s : St) : Sim true (decodeEntryH H E n text path) (decodeEntryH H' E n text path) s := by
  have hc := callsH_sim hw E n
  refine Sim.rfl.bind fun _ _ => Sim.rfl.bind fun k s2 => ?_
  cases k with
  | library => exact (decodeLibrary_sim (same_files E) hc text path s2).bind fun _ _ => .rfl
  | dataType => exact (decodeDataType_sim (same_files E) hc text path s2).bind fun _ _ => .rfl
  | namedExample => exact .rfl

theorem parseFromPathH_sim (E : Env) (n m : Nat) (path : String) (s : St) : Sim true (parseFromPathH H E n m path) (parseFromPathH H' E n m path) s := by
  unfold parseFromPathH
  cases E.file path with
  | none => exact .rfl
  | some text => exact (decodeEntryH_sim hw E n text path s).bind fun _ s1 => (resolveLoopH_sim hw E n m true s1).bind fun _ _ => .rfl

/-! ## Unwrapping -/

theorem inheritH_eq : ∀ n, inheritH H n = inheritH H' n
  | 0 => rfl
  | n + 1 => by
    have h1 := hw.inherits "BaseShape.Inherit" (by decide)
    have h2 := hw.inherits "BaseShape.inheritUnionSource" (by decide)
    have h3 := hw.inherits "BaseShape.inheritUnionTarget" (by decide)
    funext a b
    unfold inheritH inheritDispatchH inheritUnionSourceH inheritUnionTargetH runHooks
    rw [h1, h2, h3, inheritH_eq n]

omit hw in
theorem Sim.whenSome {α : Type} {f f' : α → M St Unit} (h : ∀ x s, Sim true (f x) (f' x) s) (o : Option α) (s : St) :
    Sim true (GoRaml.whenSome o f) (GoRaml.whenSome o f') s := by
  cases o with
  | none => exact .rfl
  | some a => exact h a s

section
variable {rec rec' : Addr → M St Addr} (hr : ∀ a s, Sim true (rec a) (rec' a) s)
include hr

omit hw in
theorem unwrapProps_sim (i : Nat) : ∀ (n k : Nat) (s : St), Sim true (unwrapProps rec i n k) (unwrapProps rec' i n k) s
  | 0, _, _ => .diverge
  | n + 1, k, s => by
    unfold Sim unwrapProps
    cases (s.props (some i))[k]? with
    | none => exact fun _ => rfl
    | some kp => exact (hr kp.2.base s).bind fun us s1 => Sim.rfl.bind fun _ s2 => unwrapProps_sim i n (k + 1) s2

omit hw in
theorem unwrapPatProps_sim (i : Nat) : ∀ (n k : Nat) (s : St), Sim true (unwrapPatProps rec i n k) (unwrapPatProps rec' i n k) s
  | 0, _, _ => .diverge
  | n + 1, k, s => by
    unfold Sim unwrapPatProps
    cases (s.patProps (some i))[k]? with
    | none => exact fun _ => rfl
    | some kp => exact (hr kp.2.base s).bind fun us s1 => Sim.rfl.bind fun _ s2 => unwrapPatProps_sim i n (k + 1) s2

omit hw in
theorem unwrapMembers_sim (i : Nat) : ∀ (n k : Nat) (s : St), Sim true (unwrapMembers rec i n k) (unwrapMembers rec' i n k) s
  | 0, _, _ => .diverge
  | n + 1, k, s => by
    unfold Sim unwrapMembers
    cases (s.slice (some i))[k]? with
    | none => exact fun _ => rfl
    | some m => exact (hr m s).bind fun us s1 => Sim.rfl.bind fun _ s2 => unwrapMembers_sim i n (k + 1) s2

omit hw in
theorem unwrapTarget_sim (n : Nat) (a : Addr) (s : St) : Sim true (unwrapTarget rec n a) (unwrapTarget rec' n a) s := by
  refine Sim.rfl.bind fun h s1 => ?_
  unfold unwrapTargetShape
  cases h.shapeAt a with
  | none => exact .rfl
  | some sh =>
    cases sh with
    | array f => exact Sim.whenSome (fun i s => (hr i s).bind fun _ _ => .rfl) _ s1
    | object f =>
      refine (Sim.whenSome (fun i s => unwrapProps_sim hr i n 0 s) _ s1).bind fun _ s2 => ?_
      exact Sim.whenSome (fun i s => unwrapPatProps_sim hr i n 0 s) (objectAt s2 a).patternProperties s2
    | union l e => exact Sim.whenSome (fun i s => unwrapMembers_sim hr i n 0 s) _ s1
    | _ => exact .rfl

theorem unwrapMoreParentsH_sim (n : Nat) (ss : Addr) (i : Nat) : ∀ (left k : Nat) (s : St),
    Sim true (unwrapMoreParentsH H rec n ss i left k) (unwrapMoreParentsH H' rec' n ss i left k) s
  | 0, _, _ => .rfl
  | left + 1, k, s => by
    unfold Sim unwrapMoreParentsH
    cases (s.slice (some i))[k]? with
    | none => exact fun _ => rfl
    | some p =>
      rw [inheritH_eq hw]
      exact (hr p s).bind fun us s1 => Sim.rfl.bind fun _ s2 => Sim.rfl.bind fun _ s3 => unwrapMoreParentsH_sim n ss i left (k + 1) s3

theorem unwrapParentsH_sim (n : Nat) (a : Addr) (s : St) : Sim true (unwrapParentsH H rec n a) (unwrapParentsH H' rec' n a) s := by
  refine Sim.rfl.bind fun b s1 => ?_
  unfold Sim
  cases b.link with
  | some d =>
    simp only
    cases (s1.dts[d]?).bind (·.shape) with
    | none => exact fun _ => rfl
    | some x => exact (hr x s1).bind fun _ _ => .rfl
  | none =>
    simp only
    cases b.inherits with
    | none => exact fun _ => rfl
    | some i =>
      cases s1.slice (some i) with
      | nil => exact fun _ => rfl
      | cons p ps => exact (hr p s1).bind fun _ s2 => Sim.rfl.bind fun _ s3 => (unwrapMoreParentsH_sim hw hr n _ i _ 1 s3).bind fun _ _ => .rfl

omit hw in
theorem unwrapFacetDefs_sim (a : Addr) (i : Nat) : ∀ (n k : Nat) (s : St), Sim true (unwrapFacetDefs rec a i n k) (unwrapFacetDefs rec' a i n k) s
  | 0, _, _ => .diverge
  | n + 1, k, s => by
    unfold Sim unwrapFacetDefs
    cases (s.props (some i))[k]? with
    | none => exact fun _ => rfl
    | some kp =>
      exact (hr kp.2.base s).bind fun us s1 => Sim.rfl.bind fun _ s2 => Sim.rfl.bind fun _ s3 => Sim.rfl.bind fun _ s4 => Sim.rfl.bind fun _ s5 =>
        unwrapFacetDefs_sim a i n (k + 1) s5

end

theorem unwrapH_sim : ∀ (n : Nat) (a : Addr) (s : St), Sim true (unwrapH H n a) (unwrapH H' n a) s
  | 0, _, _ => .diverge
  | n + 1, a, s => by
    have ih := unwrapH_sim n
    unfold unwrapH
    refine (runHooks_sim hw _ _ s).bind fun _ s0 => Sim.rfl.bind fun b s1 => ?_
    cases b.shape with
    | none => exact .rfl
    | some sh =>
      refine .ite .rfl (Sim.rfl.bind fun _ s2 => ?_)
      cases b.alias with
      | some t => exact (ih t s2).bind fun _ _ => .rfl
      | none =>
        refine (unwrapParentsH_sim hw ih n a s2).bind fun source s3 => (unwrapTarget_sim ih n a s3).bind fun _ s4 => Sim.rfl.bind fun b' s5 =>
          (Sim.whenSome (fun i s => unwrapFacetDefs_sim ih a i n 0 s) _ s5).bind fun _ s6 => ?_
        unfold unwrapFinishH
        rw [inheritH_eq hw]
        exact .rfl

section
variable {rec rec' : Addr → M St (Option Addr)} (hr : ∀ a s, Sim true (rec a) (rec' a) s)
include hr

omit hw in
theorem markProps_sim (i : Nat) (s : St) : Sim true (markProps rec i) (markProps rec' i) s := by
  refine Sim.forEach (fun k s => ?_) (List.range (s.props (some i)).length) s
  unfold Sim markProp
  cases (s.props (some i))[k]? with
  | none => exact fun _ => rfl
  | some kp => exact (hr _ s).bind fun _ _ => .rfl

omit hw in
theorem markPatProps_sim (i : Nat) (s : St) : Sim true (markPatProps rec i) (markPatProps rec' i) s := by
  refine Sim.forEach (fun k s => ?_) (List.range (s.patProps (some i)).length) s
  unfold Sim markPatProp
  cases (s.patProps (some i))[k]? with
  | none => exact fun _ => rfl
  | some kp => exact (hr _ s).bind fun _ _ => .rfl

omit hw in
theorem markMembers_sim (i : Nat) (s : St) : Sim true (markMembers rec i) (markMembers rec' i) s := by
  refine Sim.forEach (fun k s => ?_) (List.range (s.slice (some i)).length) s
  unfold Sim markMember
  cases (s.slice (some i))[k]? with
  | none => exact fun _ => rfl
  | some kp => exact (hr _ s).bind fun _ _ => .rfl

omit hw in
theorem markShape_sim (a : Addr) (sh : Option Shape) (s : St) : Sim true (markShape rec a sh) (markShape rec' a sh) s := by
  unfold markShape
  cases sh with
  | none => exact .rfl
  | some sh =>
    cases sh with
    | array f => exact Sim.whenSome (fun i s => (hr i s).bind fun _ _ => .rfl) _ s
    | object f => exact (Sim.whenSome (markProps_sim hr) _ s).bind fun _ s1 => Sim.whenSome (markPatProps_sim hr) _ s1
    | union l e => exact Sim.whenSome (markMembers_sim hr) _ s
    | _ => exact .rfl

end

theorem markH_sim : ∀ (n : Nat) (a : Addr) (s : St), Sim true (markH H n a) (markH H' n a) s
  | 0, _, _ => .diverge
  | n + 1, a, s => by
    have ih := markH_sim n
    unfold markH
    exact (runHooks_sim hw _ _ s).bind fun _ s0 => Sim.rfl.bind fun b s1 => .ite .rfl (.ite .rfl (Sim.rfl.bind fun _ s2 => (markShape_sim ih a _ s2).bind fun _ s3 =>
      Sim.rfl.bind fun _ s4 => (Sim.whenSome (markProps_sim ih) _ s4).bind fun _ _ => .rfl))

omit hw in
theorem tryEach_sim {σ α : Type} {f f' : α → M σ Unit} (h : ∀ x s, Sim true (f x) (f' x) s) : ∀ (l : List α) (s : σ), Sim true (M.tryEach f l) (M.tryEach f' l) s
  | [], _ => .rfl
  | x :: xs, s => by
    have ih := tryEach_sim h xs
    rintro ⟨u, hu⟩
    have hx := h x s
    unfold Sim at hx ih
    unfold M.tryEach at hu ⊢
    simp only [M.bind, M.attempt] at hu ⊢
    cases hm : f x s with
    | mk o s1 =>
      rw [hm] at hx hu
      cases o with
      | ok a =>
        rw [hx ⟨a, rfl⟩]
        simp only at hu ⊢
        have := ih s1
        cases hm2 : M.tryEach f xs s1 with
        | mk o2 s2 =>
          rw [hm2] at this hu
          cases o2 with
          | ok b => rw [this ⟨b, rfl⟩]
          | err e => cases hu
          | panic e => cases hu
          | diverge => cases hu
      | err e =>
        simp only at hu
        cases hm2 : M.tryEach f xs s1 with
        | mk o2 s2 =>
          rw [hm2] at hu
          cases o2 <;> cases hu
      | panic e => cases hu
      | diverge => cases hu

omit hw in
theorem tryBoth_sim {σ : Type} {m m' p p' : M σ Unit} (h : ∀ s, Sim true m m' s) (h' : ∀ s, Sim true p p' s) (s : σ) :
    Sim true (M.tryBoth m p) (M.tryBoth m' p') s := by
  have key : ∀ b s, Sim true ((fun b : Bool => if b then m else p) b) ((fun b : Bool => if b then m' else p') b) s := fun b s => by
    cases b
    · exact h' s
    · exact h s
  have := tryEach_sim key [true, false] s
  exact this

theorem unwrapFragmentH_sim (n : Nat) (f : FragRef) (s : St) : Sim true (unwrapFragmentH H n f) (unwrapFragmentH H' n f) s := by
  unfold Sim unwrapFragmentH
  cases f with
  | library i =>
    simp only
    cases s.libs[i]? with
    | none => exact fun _ => rfl
    | some l =>
      exact tryBoth_sim (fun s => tryEach_sim (fun ka s => (unwrapH_sim hw n ka.2 s).bind fun _ _ => .rfl) _ s)
        (fun s => tryEach_sim (fun ka s => (unwrapH_sim hw n ka.2 s).bind fun _ _ => .rfl) _ s) s
  | dataType i =>
    simp only
    cases s.dts[i]? with
    | none => exact fun _ => rfl
    | some d =>
      show Sim true (unwrapDataTypeH H n i d) (unwrapDataTypeH H' n i d) s
      unfold unwrapDataTypeH
      cases d.shape with
      | none => exact .rfl
      | some a => exact (unwrapH_sim hw n a s).bind fun _ _ => .rfl
  | namedExample i => exact fun _ => rfl

theorem markFragmentH_sim (n : Nat) (f : FragRef) (s : St) : Sim true (markFragmentH H n f) (markFragmentH H' n f) s := by
  unfold Sim markFragmentH
  cases f with
  | library i =>
    simp only
    cases s.libs[i]? with
    | none => exact fun _ => rfl
    | some l => exact Sim.forEach (fun ka s => (markH_sim hw n ka.2 s).bind fun _ _ => .rfl) _ s
  | dataType i =>
    simp only
    cases (s.dts[i]?).bind (·.shape) with
    | none => exact fun _ => rfl
    | some a => exact (markH_sim hw n a s).bind fun _ _ => .rfl
  | namedExample i => exact fun _ => rfl

theorem unwrapShapesH_sim (n : Nat) (fs fs' : List FragRef) (s : St) : Sim true (unwrapShapesH H n fs fs') (unwrapShapesH H' n fs fs') s :=
  Sim.rfl.bind fun _ s1 => (tryEach_sim (unwrapFragmentH_sim hw n) fs s1).bind fun _ s2 => (Sim.forEach (markFragmentH_sim hw n) fs' s2).bind fun _ _ => .rfl

/-! ## Validation -/

omit hw in
theorem outEach_le {α : Type} {f f' : α → Out Unit} (h : ∀ x, Le true (f x) (f' x)) : ∀ l : List α, Le true (Out.forEach f l) (Out.forEach f' l)
  | [] => .rfl
  | x :: xs => (h x).bind fun _ => outEach_le h xs

omit hw in
theorem validateComponents_le {rec rec' : Addr → Out Unit} (h : St) (hr : ∀ a, Le true (rec a) (rec' a)) (s : Option Shape) :
    Le true (validateComponents rec h s) (validateComponents rec' h s) := by
  unfold validateComponents
  cases s with
  | none => exact .rfl
  | some sh =>
    cases sh with
    | object f => exact (outEach_le (fun _ => hr _) _).bind fun _ => outEach_le (fun _ => hr _) _
    | array f =>
      simp only
      cases f.items with
      | none => exact .rfl
      | some i => exact hr i
    | union l e => exact outEach_le hr _
    | _ => exact .rfl

theorem validateComponentsH_le {rec rec' : Addr → Out Unit} (h : St) (hr : ∀ a, Le true (rec a) (rec' a)) (a : Addr) (s : Option Shape) :
    Le true (validateComponentsH H rec h a s) (validateComponentsH H' rec' h a s) := by
  have hv := validateComponents_le h hr
  unfold validateComponentsH
  cases s with
  | none => exact .rfl
  | some sh =>
    cases sh with
    | object f => exact (hook_le hw _ _ _).bind fun _ => hv _
    | _ => exact hv _

theorem validateCommonsH_le (E : Ext) (h : St) (ord : OMap Property → OMap Property) : ∀ (n : Nat) (a : Addr),
    Le true (validateCommonsH H E h ord n a) (validateCommonsH H' E h ord n a)
  | 0, _ => .rfl
  | n + 1, a => by
    have ih := validateCommonsH_le E h ord n
    unfold validateCommonsH
    refine (hook_le hw _ _ _).bind fun _ => ?_
    cases h.base a with
    | none => exact .rfl
    | some b =>
      exact (hook_le hw _ _ _).bind fun _ => Le.rfl.bind fun _ => (hook_le hw _ _ _).bind fun _ => Le.rfl.bind fun _ =>
        (validateComponentsH_le hw h ih a _).bind fun _ => outEach_le (fun _ => ih _) _

omit hw in
theorem onSt_sim {α : Type} {m m' : M St α} (h : ∀ s, Sim true m m' s) (s : VSt) : Sim true (onSt m) (onSt m') s := by
  rintro ⟨a, ha⟩
  have := h s.h ⟨a, ha⟩
  simp only [onSt, this]

theorem validateTypeH_sim (E : Ext) (ord : OMap Property → OMap Property) (n : Nat) (a : Addr) (s : VSt) :
    Sim true (validateTypeH H E ord n a) (validateTypeH H' E ord n a) s := by
  unfold validateTypeH
  have hu : Sim true (unwrapCopyH H n a) (unwrapCopyH H' n a) s :=
    Sim.rfl.bind fun b s1 => .ite .rfl (Sim.rfl.bind fun c s2 => (onSt_sim (unwrapH_sim hw n c) s2).bind fun us s3 => (onSt_sim (markH_sim hw n us) s3).bind fun _ _ => .rfl)
  exact hu.bind fun u s1 => Sim.rfl.bind fun t s2 => Sim.rfl.bind fun _ s3 => .lift (validateCommonsH_le hw E t.h ord n u)

theorem validateTypesH_sim (E : Ext) (ord : OMap Property → OMap Property) (n : Nat) (m : OMap Addr) (s : VSt) :
    Sim true (validateTypesH H E ord n m) (validateTypesH H' E ord n m) s :=
  (runHooksV_sim hw _ _ s).bind fun _ s1 => tryEach_sim (fun ka s => validateTypeH_sim hw E ord n ka.2 s) m s1

theorem validateFragmentH_sim (E : Ext) (ord : OMap Property → OMap Property) (n : Nat) (f : FragRef) (s : VSt) :
    Sim true (validateFragmentH H E ord n f) (validateFragmentH H' E ord n f) s := by
  unfold Sim validateFragmentH
  cases f with
  | library i =>
    simp only
    cases s.h.libs[i]? with
    | none => exact fun _ => rfl
    | some l => exact (runHooksV_sim hw _ _ s).bind fun _ s1 => tryBoth_sim (validateTypesH_sim hw E ord n _) (validateTypesH_sim hw E ord n _) s1
  | dataType i =>
    simp only
    refine (runHooksV_sim hw _ _ s).bind fun _ s1 => ?_
    unfold Sim
    simp only []
    cases (s1.h.dts[i]?).bind (·.shape) with
    | none => exact fun _ => rfl
    | some a => exact validateTypeH_sim hw E ord n a s1
  | namedExample i => exact fun _ => rfl

theorem validateShapesH_sim (E : Ext) (ord : OMap Property → OMap Property) (fs : List FragRef) (n : Nat) (s : St) :
    Sim true (validateShapesH H E ord fs n) (validateShapesH H' E ord fs n) s := by
  refine (runHooks_sim hw _ _ s).bind fun _ s1 => ?_
  have h : ∀ t, Sim true (M.tryBoth (validateFragmentsH H E ord n fs) (validateDomainExtensionsH H E n))
      (M.tryBoth (validateFragmentsH H' E ord n fs) (validateDomainExtensionsH H' E n)) t := fun t =>
    tryBoth_sim (fun s => (runHooksV_sim hw _ _ s).bind fun _ s1 => tryEach_sim (validateFragmentH_sim hw E ord n) fs s1)
      (fun s => (runHooksV_sim hw _ _ s).bind fun _ _ => .rfl) t
  rintro ⟨u, hu⟩
  have := h ⟨s1, []⟩ ⟨u, hu⟩
  simp only [this]

theorem parseWithH_sim (E : Env) (ord : Orders) (n m : Nat) (path : String) (o : ParseOpts) (s : St) :
    Sim true (parseWithH H E ord n m path o) (parseWithH H' E ord n m path o) s := by
  refine (parseFromPathH_sim hw E n m path s).bind fun _ s1 => Sim.bind (Sim.bind (.ite ?_ .rfl) fun _ s2 => .ite ?_ .rfl) fun _ _ => .rfl
  · exact unwrapShapesH_sim hw n (ord.unwrap s1.fragments) (ord.mark s1.fragments) s1
  · exact validateShapesH_sim hw E.toExt ord.facets (ord.validate s2.fragments) n s2

end GoRaml.Hooked
