import Verif.Lemmas.MeanFragments
import Verif.Lemmas.MarkGuarded

/-!
# What the types of a straight model mean: from unwrapping to validation
-/

namespace GoRaml.Mean

open GoRaml GoRaml.Spec

variable {s0 s s' : St} {K : Whole.Par}

theorem kind_recursive_iff {q : Shape} : Kind q = "recursive" ↔ ∃ y, q = .recursive y := by
  cases q <;> simp [Kind]

section
variable (S : Setup s0)
include S

/-- Unwrapping makes no recursive types. -/
theorem Inv.plain (hi : Inv s0 idle s) (a y : Addr) : s.shapeAt a ≠ some (.recursive y) := fun h => by
  obtain ⟨b, h1, h2⟩ : ∃ b, s.base a = some b ∧ b.shape = some (.recursive y) := by
    unfold St.shapeAt at h
    exact Option.bind_eq_some_iff.1 h
  obtain ⟨b0, h0⟩ := hi.base0 h1
  obtain ⟨b', k1, k2, k3⟩ := hi.node a b0 h0
  rw [h1] at k1
  cases k1
  cases k3 with
  | raw e1 e2 e3 => subst e3; exact S.plain a y (by simp [St.shapeAt, h0, h2])
  | opened _ e2 => exact e2.elim
  | done e1 e2 e3 e4 e5 =>
    obtain ⟨l, hl, _⟩ := S.straight.line a b0 h0
    by_cases hse : Sealed s0 s idle a
    · obtain ⟨c, z, n1, n2, n3⟩ := hse
      obtain ⟨_, _, L, _, q0, q, _, m2, _, m4, _⟩ := hi.ovs c a z n1 n2 n3
      rw [h] at m2
      cases m2
      exact m4.1
    · obtain ⟨q0, q, m1, m2, m3, _⟩ := (e5 l hl).1 hse
      rw [h] at m2
      cases m2
      obtain ⟨z, rfl⟩ := kind_recursive_iff.1 m3.symm
      exact S.plain a z m1

/-- The members of unions are below them. -/
theorem Inv.below (hi : Inv s0 idle s) {rank : Addr → Nat} (h1 : ∀ a u e, s0.shapeAt a = some (.union u e) → ∀ m ∈ s0.slice u, rank m < rank a)
    (h2 : ∀ a x, BuiltOn s0 a x → rank x ≤ rank a) {a : Addr} {u : Option Nat} {e : Option (List GoVal)} (h : s.shapeAt a = some (.union u e)) : ∀ m ∈ s.slice u, rank m < rank a := by
  have hsl : s.slice u = s0.slice u := by unfold St.slice; rw [hi.slices]
  rw [hsl]
  obtain ⟨b, k1, k2⟩ : ∃ b, s.base a = some b ∧ b.shape = some (.union u e) := by
    unfold St.shapeAt at h
    exact Option.bind_eq_some_iff.1 h
  obtain ⟨b0, h0⟩ := hi.base0 k1
  obtain ⟨b', k3, _, k4⟩ := hi.node a b0 h0
  rw [k1] at k3
  cases k3
  cases k4 with
  | raw e1 e2 e3 => subst e3; exact h1 a u e (by simp [St.shapeAt, h0, k2])
  | opened _ e2 => exact e2.elim
  | done e1 e2 e3 e4 e5 =>
    obtain ⟨l, hl, _⟩ := S.straight.line a b0 h0
    have hse : ¬ Sealed s0 s idle a := fun ⟨c, z, n1, n2, n3⟩ => by
      obtain ⟨_, _, L, _, q0, q, _, m2, _, m4, _⟩ := hi.ovs c a z n1 n2 n3
      rw [h] at m2
      cases m2
      exact m4.1
    obtain ⟨q0, q, m1, m2, m3, m4⟩ := (e5 l hl).1 hse
    rw [h] at m2
    cases m2
    obtain ⟨c, e', n1, n2⟩ := m4
    have hd := line_descends hl c (List.mem_of_getLast? n1)
    have hle : rank c ≤ rank a := by
      clear n1 n2
      induction hd with
      | refl => exact Nat.le_refl _
      | step _ k ih => exact Nat.le_trans (h2 _ _ k) ih
    exact fun m hm => Nat.lt_of_lt_of_le (h1 c u e' n2 m hm) hle

/-- After marking, each cycle passes an array item or an object property. -/
theorem guarded (hi : Inv s0 idle s) (hc : Spec.Closed s) (mk : Marked (Whole.There s) s s') : Guarded s' := by
  obtain ⟨rank, h1, h2⟩ := S.straight.grounded
  exact guarded_marked (fun _ _ _ h => hi.below S h1 h2 h) (hi.plain S) hc mk

end

theorem marked_exts {C : Addr → Prop} {h h' : St} (mk : Marked C h h') {e : List DomainExt} : Marked C h { h' with domainExts := e } := by
  have hr : ∀ {x y}, Repl C h h' x y → Repl C h { h' with domainExts := e } x y := fun h => h
  refine ⟨fun x b hb => ?_, mk.props, mk.patProps, mk.slices, mk.fresh, mk.roots⟩
  obtain ⟨sh, v, k1, k2⟩ := mk.old x b hb
  refine ⟨sh, v, k1, ?_⟩
  generalize b.shape = bs at k2
  cases k2 with
  | same => exact .same _
  | items h1 h2 => exact .items h1 (hr h2)

/-- Unwrapping a straight model makes its declared types accept what they mean. -/
theorem unwrapShapes_means [K.Rec] (S : Setup s) (hone : Kin.OneEach s) (hw : Whole.Wf K (Whole.cleared s)) {n : Nat} {fs fs' : List FragRef}
    (hf : ∀ f ∈ fs, Whole.FragThere (Whole.cleared s) f) (hf' : ∀ f ∈ fs', Whole.FragThere (Whole.cleared s) f) (hall : ∀ e ∈ s.fragments, e.2 ∈ fs)
    (hx : ∀ d ∈ s.domainExts, ∃ a, d.definedBy = some a) (hr : unwrapShapes n fs fs' s = (.ok (), s')) {a : Addr} (ha : DeclaredType s a) (E : Ext) :
    DeclaredType s' a ∧ ∀ v, GoValue v → (Accepts E s' a v ↔ Means E s a v) ∧ (Rejects E s' a v ↔ ¬ Means E s a v) := by
  unfold unwrapShapes at hr
  obtain ⟨_, s0, e0, hr⟩ := M.bind_ok.1 hr
  cases e0
  have hr : (M.bind (unwrapFragments n fs) fun _ => M.bind (markFragments n fs') fun _ => unwrapDomainExtensions) (Whole.cleared s) = (.ok (), s') := hr
  obtain ⟨_, s1, e1, hr⟩ := M.bind_ok.1 hr
  obtain ⟨_, s2, e2, hr⟩ := M.bind_ok.1 hr
  have r1 := Whole.unwrapFragments_two (n := n) hw hf fun _ h => by cases h
  unfold Whole.Sound2 Whole.Safe at r1
  rw [e1] at r1
  obtain ⟨⟨w1, d1⟩, k1, _⟩ := r1
  obtain ⟨lp, mk, _⟩ := Whole.Looping.fragments w1 fs' s1 s2 (.refl w1) (fun f h => (hf' f h).kept k1) e2
  have hexts : s2.domainExts = s.domainExts := lp.bigger.exts.trans k1.exts
  have hrun := Whole.unwrapDomainExtensions_run (s := s2) fun d hd' => by
    obtain ⟨a, ha⟩ := hx d (hexts ▸ hd')
    obtain ⟨b, hb⟩ := Whole.isBase_base (lp.wf.exts d hd' a ha)
    exact ⟨a, b, ha, hb⟩
  rw [hr] at hrun
  obtain ⟨_, _, _, e', p3, _⟩ := hrun
  simp only at p3
  obtain ⟨w, _, hun⟩ := unwrapFragments_stay S hone (start S hw) s1 e1
  have mk' : Marked (Whole.There s1) s1 s' := by rw [p3]; exact marked_exts mk
  have hc1 : Spec.Closed s1 := Emb.Wf.closed (Emb.Wf.cleared w1)
  have hc2 : Spec.Closed s2 := Emb.Wf.closed (Emb.Wf.cleared lp.wf)
  have hc' : Spec.Closed s' := by rw [p3]; exact hc2
  have hua : Unw s1 a := by
    refine hun a ?_
    cases ha with
    | type h1 h2 h3 => exact ⟨_, hall _ h1, _, h2, .types, _, h3, rfl⟩
    | annotationType h1 h2 h3 => exact ⟨_, hall _ h1, _, h2, .annotationTypes, _, h3, rfl⟩
    | dataType h1 h2 h3 => exact ⟨_, hall _ h1, _, h2, h3⟩
  have hfr : s'.fragments = s.fragments := by rw [p3]; exact lp.bigger.fragments.trans k1.fragments
  have hli : s'.libs = s.libs := by rw [p3]; exact lp.bigger.libs.trans w.libs
  have hno : ∀ c z, ¬ Over s c a z := fun c z h => by
    obtain ⟨m, k, hs⟩ := h.spot
    refine S.share.parts _ _ hs ?_
    cases ha with
    | type _ h2 h3 => exact .type (List.mem_of_getElem? h2) h3
    | annotationType _ h2 h3 => exact .annotationType (List.mem_of_getElem? h2) h3
    | dataType _ h2 h3 => exact .dataType (List.mem_of_getElem? h2) h3
  refine ⟨?_, fun v hv => ?_⟩
  · cases ha with
    | type h1 h2 h3 => exact .type (hfr ▸ h1) (hli ▸ h2) h3
    | annotationType h1 h2 h3 => exact .annotationType (hfr ▸ h1) (hli ▸ h2) h3
    | @dataType k i dt a h1 h2 h3 =>
      obtain ⟨rest, hrest⟩ := lp.bigger.dts
      refine .dataType (hfr ▸ h1) (d := dt) ?_ h3
      rw [← w.inv.dts] at h2
      rw [p3]
      show s2.dts[i]? = _
      rw [← hrest, List.getElem?_append_left (List.getElem?_eq_some_iff.1 h2).1]
      exact h2
  · obtain ⟨b, hb, _⟩ := hua
    have hne : s1.base a ≠ none := by rw [hb]; simp
    have hlt : a < s'.bases.length := by
      obtain ⟨_, _, h, _⟩ := mk'.old a b hb
      unfold St.base at h
      exact (List.getElem?_eq_some_iff.1 h).1
    have hval : Valid E s' a v ↔ Means E s a v :=
      (Iff.intro (valid_marked_back mk' hc1 hne) (valid_marked mk')).trans (valid_means S w.inv.slices (D := Within s s1) (fun x hx => w.inv.all S hx) E ⟨⟨b, hb, ‹_›⟩, fun c z h => absurd h (hno c z)⟩ hno hv)
    obtain ⟨k2, k3⟩ := accepts_iff_valid E hc' (guarded S w.inv hc1 mk') hlt hv
    exact ⟨k2.trans hval, k3.trans (not_congr hval)⟩

/-- Unwrapping a straight model leaves no type marked as visited. -/
theorem unwrapShapes_calm [K.Rec] (S : Setup s) (hone : Kin.OneEach s) (hw : Whole.Wf K (Whole.cleared s)) {n : Nat} {fs fs' : List FragRef}
    (hf : ∀ f ∈ fs, Whole.FragThere (Whole.cleared s) f) (hf' : ∀ f ∈ fs', Whole.FragThere (Whole.cleared s) f)
    (hx : ∀ d ∈ s.domainExts, ∃ a, d.definedBy = some a) (hr : unwrapShapes n fs fs' s = (.ok (), s')) : NoneVisited s' := by
  unfold unwrapShapes at hr
  obtain ⟨_, s0, e0, hr⟩ := M.bind_ok.1 hr
  cases e0
  have hr : (M.bind (unwrapFragments n fs) fun _ => M.bind (markFragments n fs') fun _ => unwrapDomainExtensions) (Whole.cleared s) = (.ok (), s') := hr
  obtain ⟨_, s1, e1, hr⟩ := M.bind_ok.1 hr
  obtain ⟨_, s2, e2, hr⟩ := M.bind_ok.1 hr
  have r1 := Whole.unwrapFragments_two (n := n) hw hf fun _ h => by cases h
  unfold Whole.Sound2 Whole.Safe at r1
  rw [e1] at r1
  obtain ⟨⟨w1, d1⟩, k1, _⟩ := r1
  obtain ⟨lp, mk, _⟩ := Whole.Looping.fragments w1 fs' s1 s2 (.refl w1) (fun f h => (hf' f h).kept k1) e2
  have hexts : s2.domainExts = s.domainExts := lp.bigger.exts.trans k1.exts
  have hrun := Whole.unwrapDomainExtensions_run (s := s2) fun d hd' => by
    obtain ⟨a, ha⟩ := hx d (hexts ▸ hd')
    obtain ⟨b, hb⟩ := Whole.isBase_base (lp.wf.exts d hd' a ha)
    exact ⟨a, b, ha, hb⟩
  rw [hr] at hrun
  obtain ⟨_, _, _, e', p3, _⟩ := hrun
  simp only at p3
  obtain ⟨w, _, hun⟩ := unwrapFragments_stay S hone (start S hw) s1 e1
  intro x b hb
  have hb : s2.base x = some b := by rw [p3] at hb; exact hb
  have hv : visitedAt s2 x ≠ some true := by
    by_cases h1 : s1.base x = none
    · exact lp.vis.fresh x h1
    · rw [lp.vis.old x h1]
      cases hb1 : s1.base x with
      | none => exact absurd hb1 h1
      | some b1 =>
        obtain ⟨b0, h0⟩ := w.inv.base0 hb1
        obtain ⟨b', k1, k2, _⟩ := w.inv.node x b0 h0
        rw [hb1] at k1
        cases k1
        simp [visitedAt, hb1, k2]
  simpa [visitedAt, hb] using hv

end GoRaml.Mean
