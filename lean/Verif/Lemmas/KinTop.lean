import Verif.Lemmas.KinAll
import Verif.Lemmas.WholeEnds

/-!
# Families of scalar types: unwrapping of a whole model
-/

namespace GoRaml.Kin

open GoRaml GoRaml.Spec GoRaml.Whole

variable {F : Fam} {rk : Addr → Nat}

theorem tryEach_ok {α σ : Type} {f : α → M σ Unit} {x : α} {xs : List α} {s s' : σ} (h : M.tryEach f (x :: xs) s = (.ok (), s')) :
    ∃ s1, f x s = (.ok (), s1) ∧ M.tryEach f xs s1 = (.ok (), s') := by
  unfold M.tryEach at h
  obtain ⟨r, s1, h1, h⟩ := M.bind_ok.1 h
  obtain ⟨rs, s2, h2, h⟩ := M.bind_ok.1 h
  rw [M.attempt_ok] at h1 h2
  cases r with
  | error e => cases rs <;> cases h
  | ok u =>
    cases rs with
    | error e => cases h
    | ok u' =>
      cases h
      refine ⟨s1, ?_, ?_⟩
      · rcases h1 with ⟨_, _, h1⟩ | ⟨_, h, _⟩
        · exact h1
        · cases h
      · rcases h2 with ⟨_, _, h2⟩ | ⟨_, h, _⟩
        · exact h2
        · cases h

theorem Sticks.tryEach {α : Type} {f : α → M St Unit} : ∀ l, (∀ x ∈ l, Sticks (f x)) → Sticks (M.tryEach f l)
  | [], _ => fun _ => vkeep_ret _
  | x :: xs, hf => by
    unfold M.tryEach
    refine Sticks.bind (fun d => Keeps.attempt (hf x (by simp) d)) fun r =>
      Sticks.bind (fun d => Keeps.attempt (Sticks.tryEach xs (fun y hy => hf y (by simp [hy])) d)) fun rs d => ?_
    cases r <;> cases rs <;> first | exact vkeep_ret _ | exact vkeep_err _

theorem Go.tryEach {α : Type} {f : α → M St Unit} : ∀ l s, (∀ x ∈ l, Sticks (f x)) → (∀ x ∈ l, ∀ s, All F s → Go F (f x) s fun _ _ => True) → All F s →
    Go F (M.tryEach f l) s fun _ _ => True
  | [], s, _, _, hw => Go.ret hw trivial
  | x :: xs, s, hf, h, hw => fun u s' hr hcalm => by
    obtain ⟨s1, h1, h2⟩ := tryEach_ok hr
    have hf' : ∀ x ∈ xs, Sticks (f x) := fun y hy => hf y (by simp [hy])
    have hc1 : Calm F s1 := Calm.before (Sticks.tryEach xs hf') (by rw [h2]; exact hcalm)
    obtain ⟨w1, r1, _⟩ := h x (by simp) s hw () s1 h1 hc1
    obtain ⟨w2, r2, _⟩ := Go.tryEach xs s1 hf' (fun y hy => h y (by simp [hy])) w1 () s' h2 hcalm
    exact ⟨w2, r1.trans r2, trivial⟩

theorem Inv.other {s s' : St} (hw : Inv F s) (h1 : s'.bases = s.bases) (h2 : s'.pmaps = s.pmaps) (h3 : s'.ppmaps = s.ppmaps) (h4 : s'.slices = s.slices)
    (h5 : s'.dts = s.dts) : Inv F s' := by
  refine hw.grow (by rw [h1]) (fun a b hb => .inl ?_) (fun m hm => .inl (h2 ▸ hm)) (fun _ _ => by rw [h2]) (fun m hm => .inl (h3 ▸ hm)) (slices_same h4) (by rw [h5])
  unfold St.base at hb ⊢
  rw [← h1]; exact hb

theorem sticks_unwrap (n : Nat) (a : Addr) : Sticks (unwrap n a) := fun d => vkeep_unwrap d n a

theorem sticks_putType (a b : String) (x : Addr) : Sticks (Heap.putType a b x) := Sticks.heap fun _ => rfl
theorem sticks_putAnn (a b : String) (x : Addr) : Sticks (Heap.putAnnotationType a b x) := Sticks.heap fun _ => rfl

theorem sticks_unwrapType (n : Nat) (c : Sect) (i : Nat) (loc : String) (ka : String × Addr) : Sticks (unwrapType n c i loc ka) := by
  refine Sticks.bind (sticks_unwrap n _) fun us => Sticks.bind (Sticks.heap fun _ => rfl) fun _ => Sticks.bind (fun d => vkeep_getBase _) fun u => ?_
  cases c
  · exact sticks_putType _ _ _
  · exact sticks_putAnn _ _ _

theorem sticks_unwrapTypes (n : Nat) (c : Sect) (i : Nat) (l : Lib) : Sticks (unwrapTypes n c i l) := Sticks.tryEach _ fun ka _ => sticks_unwrapType n c i _ ka

theorem sticks_unwrapDataType (n : Nat) (i : Nat) (d : DT) : Sticks (unwrapDataType n i d) := by
  unfold unwrapDataType
  split
  · exact fun _ => vkeep_err _
  · exact Sticks.bind (sticks_unwrap n _) fun us => Sticks.bind (Sticks.heap fun _ => rfl) fun _ => Sticks.bind (fun d => vkeep_getBase _) fun u => sticks_putType _ _ _

theorem sticks_unwrapFragment (n : Nat) (f : FragRef) : Sticks (unwrapFragment n f) := by
  intro d s
  cases f with
  | library i =>
    unfold unwrapFragment
    simp only
    split
    · exact VKeep.rfl' _
    · refine Sticks.tryEach (f := id) _ (fun m hm => ?_) d s
      rcases List.mem_cons.1 hm with rfl | hm
      · exact sticks_unwrapTypes _ _ _ _
      · rw [List.mem_singleton.1 hm]; exact sticks_unwrapTypes _ _ _ _
  | dataType i =>
    unfold unwrapFragment
    simp only
    split
    · exact VKeep.rfl' _
    · exact sticks_unwrapDataType _ _ _ d s
  | namedExample i => exact VKeep.rfl' _

section
variable (hc : Closed F rk)
include hc

theorem unwrapType_go {n : Nat} {c : Sect} {i : Nat} {loc : String} {ka : String × Addr} {s : St} (hw : All F s) :
    Go F (unwrapType n c i loc ka) s fun _ _ => True := by
  have st : ∀ (us : Addr) (u : Base), Sticks (match c with
    | .types => Heap.putType u.name loc ka.2
    | .annotationTypes => Heap.putAnnotationType u.name loc ka.2) := fun us u => by
    cases c
    · exact sticks_putType _ _ _
    · exact sticks_putAnn _ _ _
  refine Go.bind (unwrap_go hc n ka.2 s hw) (fun us => Sticks.bind (Sticks.heap fun _ => rfl) fun _ => Sticks.bind (fun d => vkeep_getBase _) (st us)) fun us s1 w1 _ _ => ?_
  refine Go.bind (Q := fun _ _ => True) (Go.heap w1 rfl (w1.1.other rfl rfl rfl rfl rfl) rfl trivial) (fun _ => Sticks.bind (fun d => vkeep_getBase _) (st us)) fun _ s2 w2 _ _ => ?_
  refine Go.bind (Go.getBase w2) (st us) fun u s3 w3 _ _ => ?_
  cases c
  · exact Go.heap w3 rfl (w3.1.other rfl rfl rfl rfl rfl) rfl trivial
  · exact Go.heap w3 rfl (w3.1.other rfl rfl rfl rfl rfl) rfl trivial

theorem unwrapTypes_go {n : Nat} {c : Sect} {i : Nat} {l : Lib} {s : St} (hw : All F s) : Go F (unwrapTypes n c i l) s fun _ _ => True :=
  Go.tryEach _ _ (fun ka _ => sticks_unwrapType n c i _ ka) (fun _ _ _ w => unwrapType_go hc w) hw

theorem unwrapLibrary_go {n : Nat} {i : Nat} {l : Lib} {s : St} (hw : All F s) : Go F (unwrapLibrary n i l) s fun _ _ => True := by
  refine Go.tryEach (f := id) _ _ (fun m hm => ?_) (fun m hm t w => ?_) hw
  · rcases List.mem_cons.1 hm with rfl | hm
    · exact sticks_unwrapTypes _ _ _ _
    · rw [List.mem_singleton.1 hm]; exact sticks_unwrapTypes _ _ _ _
  · rcases List.mem_cons.1 hm with rfl | hm
    · exact unwrapTypes_go hc w
    · rw [List.mem_singleton.1 hm]; exact unwrapTypes_go hc w

omit hc in
theorem Inv.setDT {s : St} {i : Nat} {us : Addr} (hw : Inv F s) (h : ∀ d x, F.s0.dts[i]? = some d → d.shape = some x → F.D x → us = x) :
    Inv F { s with dts := s.dts.modify i fun d => { d with shape := some us } } where
  len := hw.len
  base := hw.base
  props := hw.props
  pats := hw.pats
  empt := hw.empt
  slc := hw.slc
  one := hw.one
  zero := hw.zero
  many := hw.many
  slen := hw.slen
  dts k d x h1 h2 h3 := by
    obtain ⟨d', h4, h5⟩ := hw.dts k d x h1 h2 h3
    simp only [List.getElem?_modify, h4]
    by_cases hk : i = k
    · subst hk
      simp only [if_true]
      exact ⟨_, rfl, by rw [h d x h1 h2 h3]⟩
    · simp only [hk, if_false]
      exact ⟨_, rfl, h5⟩

theorem unwrapDataType_go {n : Nat} {i : Nat} {d : DT} {s : St} (hw : All F s) (hd : s.dts[i]? = some d) : Go F (unwrapDataType n i d) s fun _ _ => True := by
  unfold unwrapDataType
  cases hs : d.shape with
  | none => exact Go.err
  | some a =>
    refine Go.bind (unwrap_go hc n a s hw)
      (fun us => Sticks.bind (Sticks.heap fun _ => rfl) fun _ => Sticks.bind (fun d => vkeep_getBase _) fun u => sticks_putType _ _ _) fun us s1 w1 _ q1 => ?_
    refine Go.bind (Q := fun _ _ => True) (Go.heap w1 rfl (w1.1.setDT fun d0 x h1 h2 h3 => ?_) rfl trivial)
      (fun _ => Sticks.bind (fun d => vkeep_getBase _) fun u => sticks_putType _ _ _) fun _ s2 w2 _ _ => ?_
    · obtain ⟨d', h4, h5⟩ := hw.1.dts i d0 x h1 h2 h3
      rw [hd] at h4; cases h4
      rw [hs] at h5; cases h5
      exact (q1.1 h3).1
    · exact Go.bind (Go.getBase w2) (fun u => sticks_putType _ _ _) fun u s3 w3 _ _ => Go.heap w3 rfl (w3.1.other rfl rfl rfl rfl rfl) rfl trivial

theorem unwrapFragment_go {n : Nat} {f : FragRef} {s : St} (hw : All F s) : Go F (unwrapFragment n f) s fun _ _ => True := by
  cases f with
  | library i =>
    cases hl : s.libs[i]? with
    | none => exact Go.congr (m := M.panic "nil pointer dereference") (by simp only [unwrapFragment, hl]; rfl) Go.panic
    | some l => exact Go.congr (m := unwrapLibrary n i l) (by simp only [unwrapFragment, hl]) (unwrapLibrary_go hc hw)
  | dataType i =>
    cases hl : s.dts[i]? with
    | none => exact Go.congr (m := M.panic "nil pointer dereference") (by simp only [unwrapFragment, hl]; rfl) Go.panic
    | some l => exact Go.congr (m := unwrapDataType n i l) (by simp only [unwrapFragment, hl]) (unwrapDataType_go hc hw hl)
  | namedExample i => exact Go.ret hw trivial

theorem unwrapFragments_go {n : Nat} {fs : List FragRef} {s : St} (hw : All F s) : Go F (unwrapFragments n fs) s fun _ _ => True :=
  Go.tryEach _ _ (fun f _ => sticks_unwrapFragment n f) (fun _ _ _ w => unwrapFragment_go hc w) hw

/-- After a successful `UnwrapShapes` the unwrapped members of a family that are not left visited have the shapes they shall have. -/
theorem unwrapShapes_family {K : Par} [K.Rec] {s s' : St} {n : Nat} {fs fs' : List FragRef} (hw : Wf K (cleared s)) (hf : ∀ f ∈ fs, FragThere (cleared s) f)
    (hf' : ∀ f ∈ fs', FragThere (cleared s) f) (hx : ∀ d ∈ s.domainExts, ∃ a, d.definedBy = some a)
    (hs0 : F.s0 = s) (hi : Inv F s) (hr : unwrapShapes n fs fs' s = (.ok (), s')) (hcalm : Calm F s')
    {d : Addr} (hd : F.D d) (hu : ∃ b, s'.base d = some b ∧ b.unwrapped = true) : ∃ q, s'.shapeAt d = some q ∧ F.P d q := by
  unfold unwrapShapes at hr
  obtain ⟨_, s0, e0, hr⟩ := M.bind_ok.1 hr
  cases e0
  have hr : (M.bind (unwrapFragments n fs) fun _ => M.bind (markFragments n fs') fun _ => unwrapDomainExtensions) (cleared s) = (.ok (), s') := hr
  obtain ⟨_, s1, e1, hr⟩ := M.bind_ok.1 hr
  obtain ⟨_, s2, e2, hr⟩ := M.bind_ok.1 hr
  have r1 := unwrapFragments_two (n := n) hw hf fun _ h => by cases h
  unfold Sound2 Safe at r1
  rw [e1] at r1
  obtain ⟨⟨w1, d1⟩, k1, _⟩ := r1
  obtain ⟨lp, mk, _⟩ := Looping.fragments w1 fs' s1 s2 (.refl w1) (fun f h => (hf' f h).kept k1) e2
  have hexts : s2.domainExts = s.domainExts := lp.bigger.exts.trans k1.exts
  have hrun := unwrapDomainExtensions_run (s := s2) fun d hd' => by
    obtain ⟨a, ha⟩ := hx d (hexts ▸ hd')
    obtain ⟨b, hb⟩ := isBase_base (lp.wf.exts d hd' a ha)
    exact ⟨a, b, ha, hb⟩
  rw [hr] at hrun
  obtain ⟨_, _, _, e', p3, _⟩ := hrun
  simp only at p3
  subst p3
  have w0 : All F (cleared s) := ⟨hi.other rfl rfl rfl rfl rfl, fun d hd => .inl (by rw [hs0]; rfl)⟩
  have alive : ∀ d, F.D d → s1.base d ≠ none := fun d hd h => by
    have : d < s.bases.length := hi.len d hd
    have h2 : s.bases.length ≤ s1.bases.length := k1.longer.bases
    unfold St.base at h
    rw [List.getElem?_eq_none_iff] at h
    exact absurd (Nat.lt_of_lt_of_le this h2) (Nat.not_lt.2 h)
  have c1 : Calm F s1 := fun d hd => by
    rw [← lp.vis.old d (alive d hd)]
    exact hcalm d hd
  obtain ⟨w1', _, _⟩ := unwrapFragments_go hc w0 () s1 e1 c1
  obtain ⟨bu, hbu, huu⟩ := hu
  have hbu : s2.base d = some bu := hbu
  rcases w1'.2 d hd with h | ⟨b, q, h1, _, _, h4, h5⟩
  · obtain ⟨b, sh, g1, _, _, g2, _⟩ := hc.own d hd
    rw [g1] at h
    obtain ⟨t, v, j1, _⟩ := mk.old d b h
    rw [hbu] at j1; cases j1
    rw [g2] at huu; cases huu
  · obtain ⟨t, v, j1, j2⟩ := mk.old d b h1
    refine ⟨q, ?_, h5⟩
    show s2.shapeAt d = some q
    rw [shapeAt_of_base j1]
    rw [h4] at j2
    cases j2 with
    | same => rfl
    | items => exact (hc.leaf d _ h5).1.elim

end

end GoRaml.Kin
