import Verif.Lemmas.Visited
import Verif.Model.Mark

/-! The ID of an existing type is kept by `Inherit`, `AliasTo`, `UnwrapShape` and recursion marking. -/

namespace GoRaml

open Spec

/-- The type keeps its ID. -/
def IKeep (b : Addr) (h h' : St) : Prop := ∀ x, h.base b = some x → ∃ x', h'.base b = some x' ∧ x'.id = x.id

section
variable {b : Addr}

theorem IKeep.rfl' (h : St) : IKeep b h h := fun x hx => ⟨x, hx, rfl⟩
theorem IKeep.tr (x y z : St) (h1 : IKeep b x y) (h2 : IKeep b y z) : IKeep b x z := fun w hw => by
  obtain ⟨w1, h3, h4⟩ := h1 w hw
  obtain ⟨w2, h5, h6⟩ := h2 w1 h3
  exact ⟨w2, h5, h6.trans h4⟩

theorem ikeep_ret {α : Type} (a : α) : Keeps (IKeep b) (M.ret a) := fun h => IKeep.rfl' h
theorem ikeep_err {α : Type} (e : String) : Keeps (IKeep b) (M.err (α := α) e) := fun h => IKeep.rfl' h
theorem ikeep_diverge {α : Type} : Keeps (IKeep b) (M.diverge (α := α)) := fun h => IKeep.rfl' h
theorem ikeep_lift {α : Type} (o : Out α) : Keeps (IKeep b) (M.lift o) := fun h => IKeep.rfl' h
theorem ikeep_getBase (a : Addr) : Keeps (IKeep b) (Heap.getBase a) := by
  intro h; unfold Heap.getBase; cases h.base a <;> exact IKeep.rfl' h
theorem ikeep_getShape (a : Addr) : Keeps (IKeep b) (Heap.getShape a) := by
  intro h; unfold Heap.getShape; cases h.shapeAt a <;> exact IKeep.rfl' h
theorem ikeep_bases {h h' : St} (hb : h'.bases = h.bases) : IKeep b h h' := by
  intro x hx; exact ⟨x, by simpa [St.base, hb] using hx, rfl⟩
theorem ikeep_get {α : Type} {f : St → M St α} (h1 : ∀ h, IKeep b h (f h h).2) : Keeps (IKeep b) (M.bind M.get f) :=
  fun h => h1 h

theorem ikeep_upd {a : Addr} {f : Base → Base} (hf : ∀ x, (f x).id = x.id) : Keeps (IKeep b) (Heap.updBase a f) := by
  intro h x hx
  simp only [Heap.updBase]
  rw [base_upd, hx]
  refine ⟨_, rfl, ?_⟩
  split
  · exact hf x
  · rfl

theorem ikeep_upd_other {a : Addr} {f : Base → Base} (hab : a ≠ b) : Keeps (IKeep b) (Heap.updBase a f) := by
  intro h x hx
  simp only [Heap.updBase]
  rw [base_upd, hx]
  exact ⟨_, rfl, by simp [hab]⟩

theorem clone_addr {n : Nat} {a : Addr} {h h' : St} {c : Addr} (hc : cloneDetached n a h = (.ok c, h')) : c = h.bases.length := by
  cases n with
  | zero => simp [cloneDetached, clone, M.diverge] at hc
  | succ n =>
    unfold cloneDetached at hc
    cases hr : clone (n + 1) a ⟨h, []⟩ with
    | mk o t =>
      rw [hr] at hc
      cases hc
      unfold clone at hr
      obtain ⟨x, t1, h1, h2⟩ := M.bind_ok.1 hr
      have ht1 : t1 = ⟨h, []⟩ := by
        simp only [onHeap, Heap.getBase] at h1
        cases hb : h.base a with
        | none => rw [hb] at h1; cases h1
        | some y => rw [hb] at h1; cases h1; rfl
      subst ht1
      simp only [M.bind, M.get, memoGet] at h2
      replace h2 : (M.bind (onHeap (Heap.newBase x)) fun c => M.bind (memoPut x.id c) fun _ => cloneFill (clone n) x c) ⟨h, []⟩ = (.ok c, t) := h2
      obtain ⟨c1, t2, h3, h4⟩ := M.bind_ok.1 h2
      simp only [onHeap, Heap.newBase] at h3
      cases h3
      obtain ⟨_, t3, h5, h6⟩ := M.bind_ok.1 h4
      unfold cloneFill at h6
      obtain ⟨_, t4, -, h7⟩ := M.bind_ok.1 h6
      obtain ⟨_, t5, -, h8⟩ := M.bind_ok.1 h7
      obtain ⟨_, t6, -, h9⟩ := M.bind_ok.1 h8
      obtain ⟨_, t7, -, h10⟩ := M.bind_ok.1 h9
      obtain ⟨_, t8, -, h11⟩ := M.bind_ok.1 h10
      cases hs : x.shape with
      | none => rw [hs] at h11; cases h11
      | some sh =>
        rw [hs] at h11
        obtain ⟨_, t9, -, h12⟩ := M.bind_ok.1 h11
        obtain ⟨_, t10, -, h13⟩ := M.bind_ok.1 h12
        cases h13
        rfl

theorem ikeep_clone (n : Nat) (a : Addr) : Keeps (IKeep b) (cloneDetached n a) := by
  intro h x hx
  have hA := above_clone (lo := h.bases.length) n a ⟨h, []⟩ (le_refl _)
  simp only at hA
  have hlt : b < h.bases.length := by
    by_contra hc
    simp [St.base, List.getElem?_eq_none (not_lt.1 hc)] at hx
  refine ⟨x, ?_, rfl⟩
  rw [show (cloneDetached n a h).2.base b = h.base b from hA.bases b hlt]
  exact hx

variable {rec : Addr → Addr → M St Addr}

theorem ikeep_setShape (a : Addr) (s : Shape) : Keeps (IKeep b) (setShape a s) := ikeep_upd fun _ => rfl
theorem ikeep_setArray (a : Addr) (f : ArrayF) : Keeps (IKeep b) (setArray a f) := ikeep_upd fun x => by split <;> rfl
theorem ikeep_setObject (a : Addr) (f : ObjectF) : Keeps (IKeep b) (setObject a f) := ikeep_upd fun x => by split <;> rfl

theorem ikeep_inheritClone (hr : ∀ a s, Keeps (IKeep b) (rec a s)) (a s : Addr) :
    Keeps (IKeep b) (inheritClone rec a s) := by
  refine ikeep_get fun h => ?_
  intro x hx
  have hlt : b < h.bases.length := by
    by_contra hc
    simp [St.base, List.getElem?_eq_none (not_lt.1 hc)] at hx
  have h1 := ikeep_clone (h.bases.length + 1) a h x hx
  unfold M.bind
  cases hc : cloneDetached (h.bases.length + 1) a h with
  | mk o h2 =>
    rw [hc] at h1
    cases o with
    | ok c =>
      have hcl := clone_addr hc
      obtain ⟨y, hy, hid⟩ := h1
      obtain ⟨z, hz, hzid⟩ := Keeps.bind (m := Heap.newID) (f := fun id => M.bind (Heap.updBase c fun b => { b with id }) fun _ => rec c s) IKeep.tr (fun h => ikeep_bases rfl) (fun id =>
        Keeps.bind IKeep.tr (ikeep_upd_other (by subst hcl; exact Nat.ne_of_gt hlt)) fun _ => hr c s) h2 y hy
      exact ⟨z, hz, hzid.trans hid⟩
    | err e => exact h1
    | panic e => exact h1
    | diverge => exact h1

theorem ikeep_inheritMember (hr : ∀ a s, Keeps (IKeep b) (rec a s)) (s : Addr) :
    ∀ l, Keeps (IKeep b) (inheritMember rec s l)
  | [] => ikeep_ret _
  | t :: ts => by
    unfold inheritMember
    refine Keeps.bind IKeep.tr (ikeep_getBase _) fun sb => Keeps.bind IKeep.tr (ikeep_getBase _) fun tb => ?_
    split
    · refine Keeps.bind IKeep.tr (Keeps.attempt (ikeep_inheritClone hr _ _)) fun r =>
        Keeps.bind IKeep.tr (ikeep_inheritMember hr s ts) fun rest => ?_
      cases r <;> exact ikeep_ret _
    · exact ikeep_inheritMember hr s ts

theorem ikeep_inheritMembers (hr : ∀ a s, Keeps (IKeep b) (rec a s)) (ts : List Addr) :
    ∀ l, Keeps (IKeep b) (inheritMembers rec ts l)
  | [] => ikeep_ret _
  | t :: l => by
    unfold inheritMembers
    refine Keeps.bind IKeep.tr (ikeep_inheritMember hr t ts) fun fl => ?_
    split
    · exact ikeep_err _
    · exact Keeps.bind IKeep.tr (ikeep_inheritMembers hr ts l) fun _ => ikeep_ret _

theorem ikeep_inheritUnion (hr : ∀ a s, Keeps (IKeep b) (rec a s)) (a s : Addr) : Keeps (IKeep b) (inheritUnion rec a s) := by
  refine ikeep_get fun h => ?_
  by_cases he : (h.slice (unionAt h a).1).isEmpty = true
  · rw [if_pos he]; exact ikeep_setShape _ _ h
  · rw [if_neg he]
    exact Keeps.tail IKeep.tr (ikeep_inheritMembers hr _ _) (fun l => Keeps.bind IKeep.tr (fun h => ikeep_bases rfl) fun i =>
      ikeep_setShape _ _) h

theorem ikeep_inheritProp (hr : ∀ a s, Keeps (IKeep b) (rec a s)) (i : Nat) (kp : String × Property) :
    Keeps (IKeep b) (inheritProp rec i kp) := by
  refine ikeep_get fun h => ?_
  cases hg : OMap.get (h.props (some i)) kp.1 with
  | some tp =>
    dsimp only
    split
    · exact IKeep.rfl' h
    · exact Keeps.tail IKeep.tr (hr _ _) (fun _ => ikeep_ret _) h
  | none => exact ikeep_bases rfl

theorem ikeep_inheritPatProp (hr : ∀ a s, Keeps (IKeep b) (rec a s)) (i : Nat) (kp : String × PatternProperty) :
    Keeps (IKeep b) (inheritPatProp rec i kp) := by
  refine ikeep_get fun h => ?_
  cases hg : OMap.get (h.patProps (some i)) kp.1 with
  | some tp => exact Keeps.tail IKeep.tr (hr _ _) (fun _ => ikeep_ret _) h
  | none => exact ikeep_bases rfl

theorem ikeep_inheritProperties (hr : ∀ a s, Keeps (IKeep b) (rec a s)) (a s : Addr) :
    Keeps (IKeep b) (inheritProperties rec a s) := by
  refine ikeep_get fun h => ?_
  cases ha : (objectAt h a).properties with
  | none => exact ikeep_setObject a _ h
  | some i =>
    cases hb : (objectAt h s).properties with
    | none => exact IKeep.rfl' h
    | some j => exact Keeps.forEach IKeep.rfl' IKeep.tr (ikeep_inheritProp hr _) _ h

theorem ikeep_inheritPatternProperties (hr : ∀ a s, Keeps (IKeep b) (rec a s)) (a s : Addr) :
    Keeps (IKeep b) (inheritPatternProperties rec a s) := by
  refine ikeep_get fun h => ?_
  cases ha : (objectAt h a).patternProperties with
  | none => exact ikeep_setObject a _ h
  | some i =>
    cases hb : (objectAt h s).patternProperties with
    | none => exact IKeep.rfl' h
    | some j => exact Keeps.forEach IKeep.rfl' IKeep.tr (ikeep_inheritPatProp hr _) _ h

theorem ikeep_inheritObject (hr : ∀ a s, Keeps (IKeep b) (rec a s)) (a s : Addr) : Keeps (IKeep b) (inheritObject rec a s) :=
  ikeep_get fun h => Keeps.tail IKeep.tr (ikeep_lift _) (fun f => Keeps.bind IKeep.tr (ikeep_setObject a f) fun _ =>
    Keeps.bind IKeep.tr (ikeep_inheritProperties hr a s) fun _ => ikeep_inheritPatternProperties hr a s) h

theorem ikeep_inheritArray (hr : ∀ a s, Keeps (IKeep b) (rec a s)) (a s : Addr) : Keeps (IKeep b) (inheritArray rec a s) := by
  refine ikeep_get fun h => ?_
  refine Keeps.tail IKeep.tr ?_ (fun _ => ikeep_get fun h => Keeps.tail IKeep.tr (ikeep_lift _)
    (fun f => ikeep_setArray a f) h) h
  split
  · exact ikeep_setArray _ _
  · exact Keeps.bind IKeep.tr (hr _ _) fun _ => ikeep_ret _
  · exact ikeep_ret _

theorem ikeep_inheritShape (hr : ∀ a s, Keeps (IKeep b) (rec a s)) (a s : Addr) (t src : Shape) :
    Keeps (IKeep b) (inheritShape rec a s t src) := by
  unfold inheritShape
  split
  · exact ikeep_inheritArray hr a s
  · exact ikeep_inheritObject hr a s
  · refine Keeps.bind IKeep.tr (ikeep_getShape _) fun s => ?_
    split
    · exact ikeep_inheritObject hr a _
    · exact ikeep_err _
  · exact ikeep_inheritUnion hr a s
  · exact ikeep_err _
  · exact ikeep_err _
  · exact ikeep_err _
  · exact Keeps.bind IKeep.tr (ikeep_lift _) fun _ => ikeep_setShape _ _

theorem ikeep_unionSourceLoop (hr : ∀ a s, Keeps (IKeep b) (rec a s)) (a : Addr) :
    ∀ l, Keeps (IKeep b) (unionSourceLoop rec a l)
  | [] => ikeep_ret _
  | m :: ms => by
    unfold unionSourceLoop
    refine Keeps.bind IKeep.tr (ikeep_getBase _) fun mb => ?_
    split
    · exact ikeep_ret _
    · refine Keeps.bind IKeep.tr (ikeep_getBase _) fun sb => ?_
      split
      · refine Keeps.bind IKeep.tr (Keeps.attempt (ikeep_inheritClone hr _ _)) fun r =>
          Keeps.bind IKeep.tr (ikeep_unionSourceLoop hr a ms) fun rest => ?_
        split <;> exact ikeep_ret _
      · exact ikeep_unionSourceLoop hr a ms

theorem ikeep_inheritUnionSource (hr : ∀ a s, Keeps (IKeep b) (rec a s)) (a : Addr) (l : List Addr) :
    Keeps (IKeep b) (inheritUnionSource rec a l) := by
  refine Keeps.bind IKeep.tr (ikeep_unionSourceLoop hr a l) fun r => ?_
  split
  · exact ikeep_ret _
  · exact ikeep_err _
  · exact ikeep_ret _
  · exact Keeps.bind IKeep.tr (fun h => ikeep_bases rfl) fun i => Keeps.bind IKeep.tr (ikeep_upd fun _ => rfl) fun _ => ikeep_ret _

theorem ikeep_unionTargetLoop (hr : ∀ a s, Keeps (IKeep b) (rec a s)) (a : Addr) :
    ∀ l, Keeps (IKeep b) (unionTargetLoop rec a l)
  | [] => ikeep_ret _
  | m :: ms => by
    refine Keeps.bind IKeep.tr (Keeps.attempt (hr m a)) fun r =>
      Keeps.bind IKeep.tr (ikeep_unionTargetLoop hr a ms) fun rest => ?_
    cases r <;> exact ikeep_ret _

theorem ikeep_inheritUnionTarget (hr : ∀ a s, Keeps (IKeep b) (rec a s)) (a : Addr) (l : List Addr) :
    Keeps (IKeep b) (inheritUnionTarget rec a l) := by
  refine Keeps.bind IKeep.tr (ikeep_unionTargetLoop hr a l) fun r => ?_
  split
  · exact ikeep_err _
  · exact ikeep_ret _

theorem ikeep_inheritFacets (a s : Addr) : Keeps (IKeep b) (inheritFacets a s) := by
  refine Keeps.bind IKeep.tr (ikeep_getBase _) fun _ => Keeps.bind IKeep.tr (ikeep_getBase _) fun src => ?_
  split
  · exact ikeep_upd fun _ => rfl
  · exact ikeep_ret _
  · refine fun h => Keeps.forEach IKeep.rfl' IKeep.tr (fun kv h => ?_) _ h
    unfold inheritFacet
    split
    · exact IKeep.rfl' h
    · exact ikeep_bases rfl

theorem ikeep_inheritDispatch (hr : ∀ a s, Keeps (IKeep b) (rec a s)) (a s : Addr) :
    Keeps (IKeep b) (inheritDispatch rec a s) := by
  have hend : Keeps (IKeep b) (M.bind (Heap.updBase s fun x => { x with visited := false }) fun _ => M.ret a) :=
    Keeps.bind IKeep.tr (ikeep_upd fun _ => rfl) fun _ => ikeep_ret a
  unfold inheritDispatch
  refine Keeps.bind IKeep.tr (ikeep_getBase _) fun ba => Keeps.bind IKeep.tr (ikeep_getBase _) fun src => ?_
  intro h
  have hUU := Keeps.tail IKeep.tr (ikeep_inheritUnion hr a s) (fun _ => hend) h
  have hfin : ∀ t sr, IKeep b h (M.bind (inheritShape rec a s t sr) (fun _ =>
      M.bind (Heap.updBase s fun x => { x with visited := false }) fun _ => M.ret a) h).2 :=
    fun t sr => Keeps.tail IKeep.tr (ikeep_inheritShape hr a s t sr) (fun _ => hend) h
  cases hS : src.shape with
  | none =>
    cases hT : ba.shape with
    | none => exact IKeep.rfl' h
    | some t => cases t <;> first | exact IKeep.rfl' h | exact ikeep_inheritUnionTarget hr a _ h
  | some sh =>
    cases hT : ba.shape with
    | none => cases sh <;> first | exact IKeep.rfl' h | exact ikeep_inheritUnionSource hr a _ h
    | some t =>
      by_cases hu : ∃ l e, t = .union l e
      · obtain ⟨l, e, rfl⟩ := hu
        cases sh <;> first | exact IKeep.rfl' h | exact hUU | exact ikeep_inheritUnionTarget hr a _ h
      · cases sh with
        | any => exact IKeep.rfl' h
        | union l e =>
          cases t with
          | union l e => exact absurd ⟨l, e, rfl⟩ hu
          | _ => exact ikeep_inheritUnionSource hr a _ h
        | _ =>
          cases t with
          | union l e => exact absurd ⟨l, e, rfl⟩ hu
          | _ => exact hfin _ _

end

/-- The ID of a base is kept by `Inherit`, whatever the outcome. -/
theorem ikeep_inherit (b : Addr) : ∀ n a s, Keeps (IKeep b) (inherit n a s)
  | 0, _, _ => fun h => IKeep.rfl' h
  | n + 1, a, s => by
    unfold inherit
    refine Keeps.bind IKeep.tr (ikeep_getBase _) fun _ => Keeps.bind IKeep.tr (ikeep_getBase _) fun src => ?_
    split
    · exact ikeep_ret _
    · exact Keeps.bind IKeep.tr (ikeep_upd fun _ => rfl) fun _ =>
        Keeps.bind IKeep.tr (ikeep_upd fun _ => rfl) fun _ =>
        Keeps.bind IKeep.tr (ikeep_inheritFacets a s) fun _ => ikeep_inheritDispatch (ikeep_inherit b n) a s

section
variable {b : Addr}

theorem ikeep_aliasTo (a s : Addr) : Keeps (IKeep b) (aliasTo a s) :=
  Keeps.bind IKeep.tr (ikeep_getShape _) fun _ => Keeps.bind IKeep.tr (ikeep_getShape _) fun _ =>
  Keeps.bind IKeep.tr (ikeep_lift _) fun _ => Keeps.bind IKeep.tr (ikeep_setShape _ _) fun _ =>
  Keeps.bind IKeep.tr (ikeep_getBase _) fun _ => Keeps.bind IKeep.tr (ikeep_upd fun _ => rfl) fun _ => ikeep_ret _

theorem ikeep_when {α : Type} {f : α → M St Unit} (hf : ∀ x, Keeps (IKeep b) (f x)) (p : Option α) :
    Keeps (IKeep b) (whenSome p f) := by
  cases p with
  | none => exact ikeep_ret _
  | some x => exact hf x

variable {rec : Addr → M St Addr}

theorem ikeep_unwrapProps (hr : ∀ a, Keeps (IKeep b) (rec a)) (i : Nat) :
    ∀ n k, Keeps (IKeep b) (unwrapProps rec i n k)
  | 0, _ => ikeep_diverge
  | n + 1, k => by
    intro h
    unfold unwrapProps
    split
    · exact IKeep.rfl' h
    · exact Keeps.tail IKeep.tr (hr _) (fun _ => Keeps.bind IKeep.tr (fun _ => ikeep_bases rfl) fun _ =>
        ikeep_unwrapProps hr i n _) h

theorem ikeep_unwrapPatProps (hr : ∀ a, Keeps (IKeep b) (rec a)) (i : Nat) :
    ∀ n k, Keeps (IKeep b) (unwrapPatProps rec i n k)
  | 0, _ => ikeep_diverge
  | n + 1, k => by
    intro h
    unfold unwrapPatProps
    split
    · exact IKeep.rfl' h
    · exact Keeps.tail IKeep.tr (hr _) (fun _ => Keeps.bind IKeep.tr (fun _ => ikeep_bases rfl) fun _ =>
        ikeep_unwrapPatProps hr i n _) h

theorem ikeep_unwrapMembers (hr : ∀ a, Keeps (IKeep b) (rec a)) (i : Nat) :
    ∀ n k, Keeps (IKeep b) (unwrapMembers rec i n k)
  | 0, _ => ikeep_diverge
  | n + 1, k => by
    intro h
    unfold unwrapMembers
    split
    · exact IKeep.rfl' h
    · exact Keeps.tail IKeep.tr (hr _) (fun _ => Keeps.bind IKeep.tr (fun _ => ikeep_bases rfl) fun _ =>
        ikeep_unwrapMembers hr i n _) h

theorem ikeep_unwrapTarget (hr : ∀ a, Keeps (IKeep b) (rec a)) (n : Nat) (a : Addr) :
    Keeps (IKeep b) (unwrapTarget rec n a) := by
  refine ikeep_get fun h => ?_
  suffices hk : ∀ s, Keeps (IKeep b) (unwrapTargetShape rec n a s) from hk _ h
  clear h
  intro s
  unfold unwrapTargetShape
  split
  · exact ikeep_when (fun i => Keeps.bind IKeep.tr (hr i) fun us h' => ikeep_setArray _ _ h') _
  · exact Keeps.bind IKeep.tr (ikeep_when (fun i => ikeep_unwrapProps hr i n 0) _)
      (fun _ h' => ikeep_when (fun i => ikeep_unwrapPatProps hr i n 0) _ h')
  · exact ikeep_when (fun i => ikeep_unwrapMembers hr i n 0) _
  · exact ikeep_ret _

theorem ikeep_unwrapMoreParents (hr : ∀ a, Keeps (IKeep b) (rec a)) (n : Nat) (ss : Addr) (i : Nat) :
    ∀ l k, Keeps (IKeep b) (unwrapMoreParents rec n ss i l k)
  | 0, _ => ikeep_ret _
  | l + 1, k => by
    intro h
    unfold unwrapMoreParents
    split
    · exact IKeep.rfl' h
    · exact Keeps.tail IKeep.tr (hr _) (fun _ => Keeps.bind IKeep.tr (ikeep_inherit b _ _ _) fun _ =>
        Keeps.bind IKeep.tr (fun _ => ikeep_bases rfl) fun _ => ikeep_unwrapMoreParents hr n ss i l _) h

theorem ikeep_unwrapParents (hr : ∀ a, Keeps (IKeep b) (rec a)) (n : Nat) (a : Addr) :
    Keeps (IKeep b) (unwrapParents rec n a) := by
  refine Keeps.bind IKeep.tr (ikeep_getBase _) fun x h => ?_
  split
  · split
    · exact IKeep.rfl' h
    · exact Keeps.tail IKeep.tr (hr _) (fun _ => Keeps.bind IKeep.tr (ikeep_upd (by intro _; rfl)) fun _ => ikeep_ret _) h
  · split
    · exact Keeps.tail IKeep.tr (hr _) (fun _ => Keeps.bind IKeep.tr (fun _ => ikeep_bases rfl) fun _ =>
        Keeps.bind IKeep.tr (ikeep_unwrapMoreParents hr _ _ _ _ _) fun _ => ikeep_ret _) h
    · exact IKeep.rfl' h

theorem ikeep_setProp (i : Nat) (k : String) (p : Property) : Keeps (IKeep b) (Heap.setProp i k p) := fun _ => ikeep_bases rfl

theorem ikeep_newProps (m : OMap Property) : Keeps (IKeep b) (Heap.newProps m) := fun _ => ikeep_bases rfl

theorem ikeep_unwrapFacetDefs (hr : ∀ a, Keeps (IKeep b) (rec a)) (a : Addr) (i : Nat) :
    ∀ n k, Keeps (IKeep b) (unwrapFacetDefs rec a i n k)
  | 0, _ => ikeep_diverge
  | n + 1, k => by
    intro h
    unfold unwrapFacetDefs
    split
    · exact IKeep.rfl' h
    · exact Keeps.tail IKeep.tr (hr _) (fun _ => Keeps.bind IKeep.tr (ikeep_newProps _) fun _ =>
        Keeps.bind IKeep.tr (ikeep_upd (by intro _; rfl)) fun _ => Keeps.bind IKeep.tr (ikeep_getBase _) fun _ =>
        Keeps.bind IKeep.tr (ikeep_when (fun i => ikeep_setProp i _ _) _) fun _ => ikeep_unwrapFacetDefs hr a i n _) h

theorem ikeep_unwrapFinish (n : Nat) (a : Addr) (s : Option Addr) : Keeps (IKeep b) (unwrapFinish n a s) := by
  refine Keeps.bind IKeep.tr ?_ fun _ => Keeps.bind IKeep.tr (fun _ => ikeep_bases rfl) fun _ => ikeep_ret _
  cases s with
  | none => exact ikeep_ret _
  | some x => exact ikeep_inherit b _ _ _

end

/-- The ID of a base is kept by `UnwrapShape`, whatever the outcome. -/
theorem ikeep_unwrap (b : Addr) : ∀ n a, Keeps (IKeep b) (unwrap n a)
  | 0, _ => fun h => IKeep.rfl' h
  | n + 1, a => by
    have hr := ikeep_unwrap b n
    unfold unwrap
    refine Keeps.bind IKeep.tr (ikeep_getBase _) fun x => ?_
    split
    · exact ikeep_err _
    · split
      · exact ikeep_ret _
      · refine Keeps.bind IKeep.tr (ikeep_upd fun _ => rfl) fun _ => ?_
        split
        · exact Keeps.bind IKeep.tr (hr _) fun _ => Keeps.bind IKeep.tr (fun _ => ikeep_bases rfl) fun _ => ikeep_aliasTo _ _
        · exact Keeps.bind IKeep.tr (ikeep_unwrapParents hr _ _) fun _ =>
            Keeps.bind IKeep.tr (ikeep_unwrapTarget hr _ _) fun _ => Keeps.bind IKeep.tr (ikeep_getBase _) fun _ =>
            Keeps.bind IKeep.tr (ikeep_when (fun _ => ikeep_unwrapFacetDefs hr _ _ _ _) _) fun _ => ikeep_unwrapFinish _ _ _

section
variable {b : Addr}

theorem ikeep_makeRecursive (a : Addr) (x : Base) : Keeps (IKeep b) (makeRecursive a x) := by
  refine Keeps.bind IKeep.tr ?_ fun r => Keeps.bind IKeep.tr (ikeep_upd fun _ => rfl) fun _ => ikeep_ret _
  refine Keeps.bind IKeep.tr (fun _ => ikeep_bases rfl) fun _ => Keeps.bind IKeep.tr (fun _ => ikeep_bases rfl) fun _ =>
    Keeps.bind IKeep.tr (fun _ => ikeep_bases rfl) fun _ => Keeps.bind IKeep.tr ?_ fun _ => Keeps.bind IKeep.tr (fun _ => ikeep_bases rfl) fun _ => ikeep_ret _
  intro h y hy
  have hlt : b < h.bases.length := by
    by_contra hc
    simp [St.base, List.getElem?_eq_none (not_lt.1 hc)] at hy
  refine ⟨y, ?_, rfl⟩
  simp only [Heap.newBase, St.base]
  rw [List.getElem?_append_left hlt]
  exact hy

variable {rec : Addr → M St (Option Addr)}

theorem ikeep_markProps (hr : ∀ a, Keeps (IKeep b) (rec a)) (i : Nat) : Keeps (IKeep b) (markProps rec i) := by
  refine fun h => Keeps.forEach IKeep.rfl' IKeep.tr (fun k h => ?_) _ h
  unfold markProp
  split
  · exact IKeep.rfl' h
  · exact Keeps.tail IKeep.tr (hr _) (fun _ => ikeep_when (fun _ _ => ikeep_bases rfl) _) h

theorem ikeep_markPatProps (hr : ∀ a, Keeps (IKeep b) (rec a)) (i : Nat) : Keeps (IKeep b) (markPatProps rec i) := by
  refine fun h => Keeps.forEach IKeep.rfl' IKeep.tr (fun k h => ?_) _ h
  unfold markPatProp
  split
  · exact IKeep.rfl' h
  · exact Keeps.tail IKeep.tr (hr _) (fun _ => ikeep_when (fun _ _ => ikeep_bases rfl) _) h

theorem ikeep_markMembers (hr : ∀ a, Keeps (IKeep b) (rec a)) (i : Nat) : Keeps (IKeep b) (markMembers rec i) := by
  refine fun h => Keeps.forEach IKeep.rfl' IKeep.tr (fun k h => ?_) _ h
  unfold markMember
  split
  · exact IKeep.rfl' h
  · exact Keeps.tail IKeep.tr (hr _) (fun _ => ikeep_when (fun _ _ => ikeep_bases rfl) _) h

theorem ikeep_markShape (hr : ∀ a, Keeps (IKeep b) (rec a)) (a : Addr) (s : Option Shape) : Keeps (IKeep b) (markShape rec a s) := by
  unfold markShape
  split
  · exact ikeep_when (fun i => Keeps.bind IKeep.tr (hr i) fun _ => ikeep_when (fun _ => ikeep_setArray _ _) _) _
  · exact Keeps.bind IKeep.tr (ikeep_when (fun i => ikeep_markProps hr i) _) fun _ => ikeep_when (fun i => ikeep_markPatProps hr i) _
  · exact ikeep_when (fun i => ikeep_markMembers hr i) _
  · exact ikeep_ret _

end

/-- The ID of a base is kept by recursion marking. -/
theorem ikeep_mark (b : Addr) : ∀ n a, Keeps (IKeep b) (mark n a)
  | 0, _ => fun h => IKeep.rfl' h
  | n + 1, a => by
    have hr := ikeep_mark b n
    unfold mark
    refine Keeps.bind IKeep.tr (ikeep_getBase _) fun x => ?_
    split
    · exact ikeep_err _
    · split
      · exact Keeps.bind IKeep.tr (ikeep_makeRecursive _ _) fun _ => Keeps.bind IKeep.tr (ikeep_upd fun _ => rfl) fun _ => ikeep_ret _
      · exact Keeps.bind IKeep.tr (ikeep_upd fun _ => rfl) fun _ => Keeps.bind IKeep.tr (ikeep_markShape hr _ _) fun _ =>
          Keeps.bind IKeep.tr (ikeep_upd fun _ => rfl) fun _ => Keeps.bind IKeep.tr (ikeep_when (fun i => ikeep_markProps hr i) _) fun _ => ikeep_ret _

end GoRaml
