import Verif.Lemmas.Required
import Verif.Props.Inherit

/-!
# Property C17: a required property stays required through inheritance
-/

namespace GoRaml.Props

open GoRaml Spec

theorem own_ok_iff (f g : ObjectF) : (∃ r, f.inheritOwn g = .ok r) ↔
    ¬ Loosened (· < ·) f.minProperties g.minProperties ∧ ¬ Loosened (· > ·) f.maxProperties g.maxProperties := by
  unfold ObjectF.inheritOwn Loosened
  rcases inheritLower_cases natLt f.minProperties g.minProperties with ⟨x, hx, hx'⟩ | ⟨m, hx, y, z, hy, hz, hl⟩ <;>
    rcases inheritUpper_cases natLt f.maxProperties g.maxProperties with ⟨x', hu, hu'⟩ | ⟨m', hu, y', z', hy', hz', hl'⟩
  · simp only [hx, hu, Out.bind, Out.ok.injEq, exists_eq', true_iff]
    refine ⟨fun ⟨c, p, h1, h2, h3⟩ => hx' ⟨c, p, h1, h2, by simpa [natLt] using h3⟩,
      fun ⟨c, p, h1, h2, h3⟩ => hu' ⟨c, p, h1, h2, by simpa [natLt] using h3⟩⟩
  · simp only [hx, hu, Out.bind, reduceCtorEq, exists_false, false_iff, not_and, not_not]
    exact fun _ => ⟨y', z', hy', hz', by simpa [natLt] using hl'⟩
  · simp only [hx, Out.bind, reduceCtorEq, exists_false, false_iff, not_and, not_not]
    exact fun h => absurd ⟨y, z, hy, hz, by simpa [natLt] using hl⟩ h
  · simp only [hx, Out.bind, reduceCtorEq, exists_false, false_iff, not_and, not_not]
    exact fun h => absurd ⟨y, z, hy, hz, by simpa [natLt] using hl⟩ h

/-- C17: when an object type `a` inherits from an object type `b` and the call succeeds, then neither property count was
loosened, no property required by the parent was optional in the child, and afterwards the child declares every property
of the parent, as required if the parent required it. -/
theorem c17_required_kept {n : Nat} {h h' : St} {a b r : Addr} {f g : ObjectF} (ha : h.shapeAt a = some (.object f))
    (hb : h.shapeAt b = some (.object g)) (hid : Idle h b)
    (hptr : ∀ i, f.properties = some i → ∃ ps, h.pmaps[i]? = some ps) (hrun : inherit n a b h = (.ok r, h')) :
    r = a ∧ ¬ Loosened (· < ·) f.minProperties g.minProperties ∧ ¬ Loosened (· > ·) f.maxProperties g.maxProperties ∧
    (∀ k sp tp, Declares (h.props g.properties) k sp → Declares (h.props f.properties) k tp → sp.required = true →
      tp.required = true) ∧
    ∀ f', h'.shapeAt a = some (.object f') → ∀ k sp, Declares (h.props g.properties) k sp →
      ∃ tp, Declares (h'.props f'.properties) k tp ∧ (sp.required = true → tp.required = true) := by
  cases n with
  | zero => simp [inherit, M.diverge] at hrun
  | succ n =>
    obtain ⟨rfl, h1, h2, c, hvis, hr1, hh⟩ := inherit_homog ha hb (idle_visited hid) (by simp) (by simp) (by simp) hrun
    have c' : Cosmetic h2 h' := by rw [hh]; exact Cosmetic.upd b _ (fun _ => rfl)
    obtain ⟨hown, hreq, hres⟩ := object_required (grown_inherit n) (by rw [c.shapeAt, ha]) (by rw [c.shapeAt, hb])
      (by rw [c.pmaps]; exact hptr) hr1
    rw [c.props, c.props] at hreq
    obtain ⟨h3, h4⟩ := (own_ok_iff f g).1 hown
    refine ⟨rfl, h3, h4, hreq, fun f' hf' k sp hsp => ?_⟩
    rw [c'.shapeAt] at hf'
    obtain ⟨tp, htp, hq⟩ := hres f' hf' k sp (by rw [c.props]; exact hsp)
    exact ⟨tp, by rw [c'.props]; exact htp, hq⟩

/-- C17, seen through validation: a value of the child has every property that the parent requires. -/
theorem c17_required_enforced (E : Ext) {n : Nat} {h h' : St} {a b r : Addr} {f g f' : ObjectF}
    (ha : h.shapeAt a = some (.object f)) (hb : h.shapeAt b = some (.object g)) (hid : Idle h b)
    (hptr : ∀ i, f.properties = some i → ∃ ps, h.pmaps[i]? = some ps) (hrun : inherit n a b h = (.ok r, h'))
    (hf' : h'.shapeAt a = some (.object f')) {k : String} {sp : Property} (hsp : Declares (h.props g.properties) k sp)
    (hreq : sp.required = true) {v : GoVal} (hv : Valid E h' a v) : ∃ m x, v = .map m ∧ (k, x) ∈ m := by
  obtain ⟨_, _, _, _, hall⟩ := c17_required_kept ha hb hid hptr hrun
  obtain ⟨tp, htp, hq⟩ := hall f' hf' k sp hsp
  rw [valid_iff_step] at hv
  unfold Step at hv
  rw [hf'] at hv
  obtain ⟨m, rfl, _, hr, _⟩ := hv
  obtain ⟨x, hx⟩ := hr (k, tp) htp.mem (hq hreq)
  exact ⟨m, x, rfl, hx⟩

/-- C17: when the call fails, then a property count was loosened, or a property required by the parent was optional in the
child, or the type of a property (or pattern property) declared by both failed to inherit.  `h1` is the heap at that point,
which differs from `h` only by what was added before. -/
theorem c17_failure_reasons {n : Nat} {h h' : St} {a b : Addr} {f g : ObjectF} {e : String}
    (ha : h.shapeAt a = some (.object f)) (hb : h.shapeAt b = some (.object g)) (hid : Idle h b)
    (hrun : inherit n a b h = (.err e, h')) :
    Loosened (· < ·) f.minProperties g.minProperties ∨ Loosened (· > ·) f.maxProperties g.maxProperties ∨
    (∃ i k sp tp h1, f.properties = some i ∧ (k, sp) ∈ h.props g.properties ∧ Grown h h1 ∧
      Declares (h1.props (some i)) k tp ∧
      ((sp.required = true ∧ tp.required = false) ∨ ∃ m h2, inherit m tp.base sp.base h1 = (.err e, h2))) ∨
    (∃ i j k sp tp fa fb h1 h2, Grown h h1 ∧ Grown h1 h2 ∧
      h1.shapeAt a = some (.object fa) ∧ fa.patternProperties = some i ∧
      h1.shapeAt b = some (.object fb) ∧ fb.patternProperties = some j ∧
      (k, sp) ∈ h1.patProps (some j) ∧ (k, tp) ∈ h2.patProps (some i) ∧
      ∃ m h3, inherit m tp.base sp.base h2 = (.err e, h3)) := by
  cases n with
  | zero => simp [inherit, M.diverge] at hrun
  | succ n =>
    obtain ⟨h1, c, hvis, hr0⟩ := inherit_homog_run ha hb (idle_visited hid) (by simp) (by simp) (by simp) n
    rw [hrun] at hr0
    rcases M.bind_err.1 hr0.symm with hr1 | ⟨_, _, _, hr1⟩
    · rcases object_error (grown_inherit n) (show h1.shapeAt a = some (.object f) by rw [c.shapeAt, ha])
        (show h1.shapeAt b = some (.object g) by rw [c.shapeAt, hb]) hr1 with
        hown | ⟨i, k, sp, tp, h2, hi, hk, g2, hd, hor⟩ | ⟨i, k, sp, tp, h2, h3, hk, g2, g3, hi, hd, h4, hrec⟩
      · have : ¬ ∃ r, f.inheritOwn g = .ok r := by rw [hown]; simp
        rw [own_ok_iff] at this
        by_cases hl : Loosened (· < ·) f.minProperties g.minProperties
        · exact .inl hl
        · by_cases hu : Loosened (· > ·) f.maxProperties g.maxProperties
          · exact .inr (.inl hu)
          · exact absurd ⟨hl, hu⟩ this
      · refine .inr (.inr (.inl ⟨i, k, sp, tp, h2, hi, by rw [← c.props]; exact hk, c.grown.trans g2, hd, ?_⟩))
        rcases hor with h5 | ⟨h6, h7⟩
        · exact .inl h5
        · exact .inr ⟨n, h6, h7⟩
      · have obj : ∀ x i, (objectAt h2 x).patternProperties = some i →
            ∃ fx, h2.shapeAt x = some (.object fx) ∧ fx.patternProperties = some i := by
          intro x i hx
          unfold objectAt at hx
          split at hx
          · rename_i fx hfx; exact ⟨fx, hfx, hx⟩
          · simp at hx
        obtain ⟨fa, hfa, hfa'⟩ := obj a i hi
        cases hj : (objectAt h2 b).patternProperties with
        | none => rw [hj] at hk; simp [St.patProps] at hk
        | some j =>
          obtain ⟨fb, hfb, hfb'⟩ := obj b j hj
          rw [hj] at hk
          exact .inr (.inr (.inr ⟨i, j, k, sp, tp, fa, fb, h2, h3, c.grown.trans g2, g3, hfa, hfa', hfb, hfb', hk, hd,
            n, h4, hrec⟩))
    · simp [M.bind, Heap.updBase, M.ret] at hr1

/-- C17: whatever the types and whatever the outcome (success, error or panic, nested calls included), `Inherit` never
removes or changes an entry of any property map, and never detaches the maps of an object unless it turns the type into a
union. -/
theorem c17_nothing_removed (n : Nat) (h : St) (a b : Addr) : Grown h (inherit n a b h).2 := grown_inherit n a b h

/-- The hypotheses of C17 are met, with a required and an optional property. -/
example : ∃ h', inherit 3 0 4 exInherit = (.ok 0, h') ∧ Idle exInherit 4 ∧
    exInherit.shapeAt 0 = some (.object { properties := some 0 }) ∧
    Declares (exInherit.props (some 1)) "id" ⟨"id", 7, true⟩ ∧
    Declares (h'.props (some 0)) "id" ⟨"id", 7, true⟩ :=
  ⟨_, M.run_ok (by decide +kernel), ⟨_, rfl, rfl⟩, rfl, (OMap.get_some_iff _ _ _).1 (by decide +kernel),
    (OMap.get_some_iff _ _ _).1 (by decide +kernel)⟩

/-- A failing case: the child makes a required property optional. -/
example : ∃ h', inherit 3 0 1 { heapOf [.object { properties := some 0 }, .object { properties := some 1 }, .any] with
    pmaps := [[("x", ⟨"x", 2, false⟩)], [("x", ⟨"x", 2, true⟩)]] } =
    (.err "cannot make required property optional", h') :=
  ⟨_, Prod.ext (by decide +kernel) rfl⟩

end GoRaml.Props
