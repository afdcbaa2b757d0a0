import Verif.Lemmas.Unwrapped

/-!
# Unwrapping a type whose parents and components are unwrapped

Such a call only inherits: all other writes put back what was there.
-/

namespace GoRaml

open Spec

theorem unwrap_done {h : St} {x : Addr} (hd : doneAt h x) (n : Nat) : unwrap (n + 1) x h = (.ok x, h) := by
  obtain ⟨b, hb, hu, hs⟩ := hd
  unfold unwrap
  rw [M.bind_of_ok (show Heap.getBase x h = (.ok b, h) by simp [Heap.getBase, hb])]
  cases hs' : b.shape with
  | none => rw [hs'] at hs; cases hs
  | some s => simp only [hu, if_true]; rfl

/-- The call changes nothing and either succeeds or was cut off. -/
def Quiet (m : M St Unit) (h : St) : Prop := m h = (.ok (), h) ∨ m h = (.diverge, h)

theorem modify_self {α : Type} {l : List α} {i : Nat} {f : α → α} (hf : ∀ x, l[i]? = some x → f x = x) : l.modify i f = l := by
  apply List.ext_getElem?
  intro j
  rw [List.getElem?_modify]
  by_cases hij : i = j
  · subst hij
    cases hx : l[i]? with
    | none => simp
    | some x => simp [hf x hx]
  · simp [hij]

theorem set_self {α : Type} {l : List α} {k : Nat} {x : α} (h : l[k]? = some x) : l.set k x = l := by
  apply List.ext_getElem?
  intro j
  rw [List.getElem?_set]
  by_cases hkj : k = j
  · subst hkj
    have hl := (List.getElem?_eq_some_iff.1 h).1
    rw [if_pos rfl, if_pos hl, h]
  · simp [hkj]

theorem setPropAt_self {h : St} {i k : Nat} {kp : String × Property} (hk : (h.props (some i))[k]? = some kp) :
    Heap.setPropAt i k kp h = (.ok (), h) := by
  unfold Heap.setPropAt
  have : (h.pmaps.modify i fun m => (List.set m k kp : List _)) = h.pmaps := modify_self fun m hm => by
    have he : h.props (some i) = m := by simp [St.props, hm]
    rw [he] at hk
    exact set_self hk
  rw [this]

theorem setPatPropAt_self {h : St} {i k : Nat} {kp : String × PatternProperty}
    (hk : (h.patProps (some i))[k]? = some kp) : Heap.setPatPropAt i k kp h = (.ok (), h) := by
  unfold Heap.setPatPropAt
  have : (h.ppmaps.modify i fun m => (List.set m k kp : List _)) = h.ppmaps := modify_self fun m hm => by
    have he : h.patProps (some i) = m := by simp [St.patProps, hm]
    rw [he] at hk
    exact set_self hk
  rw [this]

theorem setSliceAt_self {h : St} {i k : Nat} {x : Addr} (hk : (h.slice (some i))[k]? = some x) :
    Heap.setSliceAt i k x h = (.ok (), h) := by
  unfold Heap.setSliceAt
  have : (h.slices.modify i fun l => l.set k x) = h.slices := modify_self fun m hm => by
    have he : h.slice (some i) = m := by simp [St.slice, hm]
    rw [he] at hk
    exact set_self hk
  rw [this]

section
variable {rec : Addr → M St Addr} {h : St}

theorem unwrapProps_quiet (hr : ∀ x, doneAt h x → rec x h = (.ok x, h)) {i : Nat}
    (hd : ∀ p ∈ h.props (some i), doneAt h p.2.base) : ∀ n k, Quiet (unwrapProps rec i n k) h
  | 0, _ => Or.inr rfl
  | n + 1, k => by
    unfold Quiet unwrapProps
    cases hk : (h.props (some i))[k]? with
    | none => exact Or.inl rfl
    | some kp =>
      simp only []
      rw [M.bind_of_ok (hr _ (hd _ (List.mem_of_getElem? hk))), M.bind_of_ok (setPropAt_self hk)]
      exact unwrapProps_quiet hr hd n (k + 1)

theorem unwrapPatProps_quiet (hr : ∀ x, doneAt h x → rec x h = (.ok x, h)) {i : Nat}
    (hd : ∀ p ∈ h.patProps (some i), doneAt h p.2.base) : ∀ n k, Quiet (unwrapPatProps rec i n k) h
  | 0, _ => Or.inr rfl
  | n + 1, k => by
    unfold Quiet unwrapPatProps
    cases hk : (h.patProps (some i))[k]? with
    | none => exact Or.inl rfl
    | some kp =>
      simp only []
      rw [M.bind_of_ok (hr _ (hd _ (List.mem_of_getElem? hk))), M.bind_of_ok (setPatPropAt_self hk)]
      exact unwrapPatProps_quiet hr hd n (k + 1)

theorem unwrapMembers_quiet (hr : ∀ x, doneAt h x → rec x h = (.ok x, h)) {i : Nat}
    (hd : ∀ m ∈ h.slice (some i), doneAt h m) : ∀ n k, Quiet (unwrapMembers rec i n k) h
  | 0, _ => Or.inr rfl
  | n + 1, k => by
    unfold Quiet unwrapMembers
    cases hk : (h.slice (some i))[k]? with
    | none => exact Or.inl rfl
    | some m =>
      simp only []
      rw [M.bind_of_ok (hr _ (hd _ (List.mem_of_getElem? hk))), M.bind_of_ok (setSliceAt_self hk)]
      exact unwrapMembers_quiet hr hd n (k + 1)

theorem setArray_self {a : Addr} {f : ArrayF} (ha : h.shapeAt a = some (.array f)) : setArray a f h = (.ok (), h) := by
  obtain ⟨b, hb, hs⟩ := base_of_shape ha
  unfold setArray Heap.updBase
  refine Prod.ext rfl ?_
  have : ∀ l : List Base, l = h.bases → ({ h with bases := l } : St) = h := fun l hl => by rw [hl]
  refine this _ (modify_self fun x hx => ?_)
  have : x = b := by
    unfold St.base at hb; rw [hx] at hb; exact Option.some.inj hb
  subst this
  rw [hs]
  cases x
  simp only at hs
  rw [hs]

theorem unwrapTarget_quiet (hr : ∀ x, doneAt h x → rec x h = (.ok x, h)) {a : Addr}
    (hd : ∀ s x, h.shapeAt a = some s → ShapeEdge h s x → doneAt h x) (n : Nat) : Quiet (unwrapTarget rec n a) h := by
  unfold Quiet unwrapTarget
  rw [M.get_bind]
  cases hs : h.shapeAt a with
  | none => exact Or.inl rfl
  | some s =>
    cases s <;> unfold unwrapTargetShape <;> first | exact Or.inl rfl | skip
    case array f =>
      cases hi : f.items with
      | none => exact Or.inl (by simp [hi, whenSome, M.ret])
      | some i =>
        refine Or.inl ?_
        simp only [hi, whenSome]
        refine (M.bind_of_ok (hr _ (hd _ _ hs (.items hi)))).trans ?_
        have : ({ arrayAt h a with items := some i } : ArrayF) = f := by
          unfold arrayAt; rw [hs]; simp [← hi]
        simp only [this]
        exact setArray_self hs
    case object f =>
      have hpp : Quiet (fun h' => whenSome (objectAt h' a).patternProperties (fun i => unwrapPatProps rec i n 0) h') h := by
        unfold Quiet objectAt
        simp only [hs]
        cases hp : f.patternProperties with
        | none => exact Or.inl (by simp [hp, whenSome, M.ret])
        | some i =>
          simp only [hp, whenSome]
          exact unwrapPatProps_quiet hr (fun p hp' => hd _ _ hs (.pattern (by rw [hp]; exact hp'))) n 0
      have hp : Quiet (whenSome f.properties fun i => unwrapProps rec i n 0) h := by
        unfold Quiet
        cases hp : f.properties with
        | none => exact Or.inl rfl
        | some i => exact unwrapProps_quiet hr (fun p hp' => hd _ _ hs (.property (by rw [hp]; exact hp'))) n 0
      rcases hp with hp | hp
      · have e := M.bind_of_ok (f := fun _ h' =>
          whenSome (objectAt h' a).patternProperties (fun i => unwrapPatProps rec i n 0) h') hp
        exact hpp.imp (fun k => e.trans k) fun k => e.trans k
      · refine Or.inr ?_
        show M.bind _ _ h = _
        unfold M.bind; rw [hp]
    case union l e =>
      cases l with
      | none => exact Or.inl rfl
      | some i => exact unwrapMembers_quiet hr (fun m hm => hd _ _ hs (.member hm)) n 0

end

/-- The heap in which `a` is flagged as unwrapped. -/
def flagged (a : Addr) (h : St) : St := { h with bases := h.bases.modify a fun y => { y with unwrapped := true } }

theorem flagged_cosmetic (a : Addr) (h : St) : Cosmetic h (flagged a h) := by
  refine ⟨fun x => ?_, rfl, rfl, rfl, rfl⟩
  unfold flagged
  rw [base_upd]
  cases h.base x with
  | none => rfl
  | some b => simp only [Option.map_some]; split <;> rfl

theorem flagged_done {a x : Addr} {h : St} (hd : doneAt h x) : doneAt (flagged a h) x :=
  dkeep_upd (b := x) (a := a) (f := fun y => { y with unwrapped := true }) (fun _ hx => ⟨rfl, hx.2⟩) h hd

/-- Unwrapping `a` when its only parent `p` and all types it mentions are unwrapped and it has no custom facets. -/
theorem unwrap_inherits {n : Nat} {h h' : St} {a p r : Addr} {b : Base} {i : Nat} (hb : h.base a = some b)
    (hu : b.unwrapped = false) (hal : b.alias = none) (hl : b.link = none) (hi : b.inherits = some i)
    (hp : h.slice (some i) = [p]) (hpd : doneAt h p) (hf : h.props b.facetDefs = [])
    (hd : ∀ s x, h.shapeAt a = some s → ShapeEdge h s x → doneAt h x) (hrun : unwrap (n + 1) a h = (.ok r, h')) :
    ∃ h₂, inherit n a p (flagged a h) = (.ok r, h₂) ∧ h' = { h₂ with shapes := h₂.shapes ++ [r] } := by
  unfold unwrap at hrun
  rw [M.bind_of_ok (show Heap.getBase a h = (.ok b, h) by simp [Heap.getBase, hb])] at hrun
  cases hs : b.shape with
  | none => rw [hs] at hrun; cases hrun
  | some s =>
    rw [hs] at hrun
    simp only [hu, Bool.false_eq_true, if_false, hal] at hrun
    rw [M.bind_of_ok (upd_run _ _ _)] at hrun
    replace hrun : (M.bind (unwrapParents (unwrap n) n a) fun source =>
          M.bind (unwrapTarget (unwrap n) n a) fun _ =>
          M.bind (Heap.getBase a) fun b' =>
          M.bind (whenSome b'.facetDefs fun i => unwrapFacetDefs (unwrap n) a i n 0) fun _ =>
          unwrapFinish n a source) (flagged a h) = (.ok r, h') := hrun
    have hfb : (flagged a h).base a = some { b with unwrapped := true } := by
      unfold flagged; rw [base_upd, hb]; simp
    have hsl : (flagged a h).slice (some i) = [p] := hp
    have hpd' := flagged_done (a := a) hpd
    have hd' : ∀ s x, (flagged a h).shapeAt a = some s → ShapeEdge (flagged a h) s x → doneAt (flagged a h) x := by
      intro s' x hs' he
      have : h.shapeAt a = some s' := by
        unfold St.shapeAt at hs' ⊢; rw [hfb] at hs'; rw [hb]; exact hs'
      refine flagged_done (hd s' x this ?_)
      cases he with
      | items h1 => exact .items h1
      | property h1 => exact .property h1
      | pattern h1 => exact .pattern h1
      | member h1 => exact .member h1
    have hfd : (flagged a h).props b.facetDefs = [] := hf
    generalize flagged a h = g at *
    have hg : Heap.getBase a g = (.ok { b with unwrapped := true }, g) := by simp [Heap.getBase, hfb]
    cases n with
    | zero =>
      exfalso
      have e1 : unwrapParents (unwrap 0) 0 a g = (.diverge, g) := by
        unfold unwrapParents
        refine (M.bind_of_ok hg).trans ?_
        simp only [hl, hi, hsl]
        rfl
      unfold M.bind at hrun
      rw [e1] at hrun
      cases hrun
    | succ n =>
      have hr : ∀ x, doneAt g x → unwrap (n + 1) x g = (.ok x, g) := fun x hx => unwrap_done hx n
      have e1 : unwrapParents (unwrap (n + 1)) (n + 1) a g = (.ok (some p), g) := by
        unfold unwrapParents
        refine (M.bind_of_ok hg).trans ?_
        simp only [hl, hi, hsl]
        rw [M.bind_of_ok (hr p hpd'), M.bind_of_ok (setSliceAt_self (by rw [hsl]; rfl))]
        rfl
      rw [M.bind_of_ok e1] at hrun
      rcases unwrapTarget_quiet hr hd' (n + 1) with e2 | e2
      · rw [M.bind_of_ok e2, M.bind_of_ok hg] at hrun
        have e3 : whenSome b.facetDefs (fun i => unwrapFacetDefs (unwrap (n + 1)) a i (n + 1) 0) g = (.ok (), g) := by
          cases hfd' : b.facetDefs with
          | none => rfl
          | some j =>
            rw [hfd'] at hfd
            show unwrapFacetDefs _ a j (n + 1) 0 g = _
            unfold unwrapFacetDefs
            simp [hfd]
        simp only at hrun
        rw [M.bind_of_ok e3] at hrun
        unfold unwrapFinish at hrun
        obtain ⟨r', h₂, e4, h4⟩ := M.bind_ok.1 hrun
        obtain ⟨u, h₃, e5, h5⟩ := M.bind_ok.1 h4
        obtain ⟨h6, h7⟩ := M.ret_ok.1 h5
        subst h6
        simp only [Heap.putShape, Prod.mk.injEq, true_and] at e5
        exact ⟨h₂, e4, by rw [← h7, ← e5]⟩
      · exfalso
        unfold M.bind at hrun
        rw [e2] at hrun
        cases hrun

end GoRaml
