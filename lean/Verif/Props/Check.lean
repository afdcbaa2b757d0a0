import Verif.Lemmas.Check
import Verif.Lemmas.Graph
import Verif.Props.Validate

/-!
# Property C22: what the definition check guarantees
-/

namespace GoRaml.Props

open GoRaml Spec

/-- C22: when `Check` passes, the type and everything it mentions is consistent; when it returns an error, it is not. -/
theorem c22_check_sound (E : Ext) {h : St} (hv : RuntimeDiscriminators h) (n : Nat) (a : Addr) :
    (check E h n a = .ok () → Consistent E h a) ∧ (∀ m, check E h n a = .err m → ¬ Consistent E h a) :=
  check_sound E hv n a

/-- C22: on a closed heap, for a type whose recursion is marked (C30), `Check` returns, does not panic, and decides
consistency. -/
theorem c22_check_decides (E : Ext) {h : St} (hc : Closed h) {a : Addr} (hac : NoInfinitePath h a)
    (hv : RuntimeDiscriminators h) (ha : a < h.bases.length) :
    ((∃ n, check E h n a = .ok ()) ↔ Consistent E h a) ∧ ((∃ n m, check E h n a = .err m) ↔ ¬ Consistent E h a) := by
  obtain ⟨n, hn⟩ := check_decides E hc hac hv ha
  have hd := hn n le_rfl
  refine ⟨⟨?_, fun hC => ⟨n, hd.ok_iff.2 hC⟩⟩, ⟨?_, fun hC => ?_⟩⟩
  · rintro ⟨k, hk⟩; exact (check_sound E hv k a).1 hk
  · rintro ⟨k, m, hk⟩; exact (check_sound E hv k a).2 m hk
  · obtain ⟨m, hm⟩ := hd.err_iff.2 hC; exact ⟨n, m, hm⟩

/-- C22, a consequence: a checked integer, string, array or object type with both bounds declared admits the bounds it
declares (the range is not empty), and a checked closed object has no pattern properties, at any depth. -/
theorem c22_bounds_and_closed (E : Ext) {h : St} (hv : RuntimeDiscriminators h) {n : Nat} {a y : Addr}
    (hok : check E h n a = .ok ()) (hy : Mentions h a y) :
    (∀ f lo hi, h.shapeAt y = some (.integer f) → f.minimum = some lo → f.maximum = some hi → lo ≤ hi) ∧
    (∀ f lo hi, h.shapeAt y = some (.string f) → f.minLength = some lo → f.maxLength = some hi → lo ≤ hi) ∧
    (∀ f lo hi, h.shapeAt y = some (.array f) → f.minItems = some lo → f.maxItems = some hi → lo ≤ hi) ∧
    (∀ f lo hi, h.shapeAt y = some (.object f) → f.minProperties = some lo → f.maxProperties = some hi → lo ≤ hi) ∧
    (∀ f, h.shapeAt y = some (.object f) → f.additionalProperties = some false → f.patternProperties = none) := by
  obtain ⟨s, hs, hd⟩ := (check_sound E hv n a).1 hok y hy
  refine ⟨?_, ?_, ?_, ?_, ?_⟩
  · intro f lo hi h1; rw [hs] at h1; cases h1; exact hd.1 lo hi
  · intro f lo hi h1; rw [hs] at h1; cases h1; exact hd.1 lo hi
  · intro f lo hi h1; rw [hs] at h1; cases h1; exact hd lo hi
  · intro f lo hi h1; rw [hs] at h1; cases h1; exact hd.1 lo hi
  · intro f h1; rw [hs] at h1; cases h1; exact hd.2.1

/-- An object (0) with discriminator `kind`, a string property (1) with an enum, and a list (2) of integers 1..3 (3). -/
def exCheck : St :=
  { bases := [{ shape := some (.object { properties := some 0, discriminator := some "kind", discriminatorValue := .str "a" }) },
      { shape := some (.string { enum := some [.str "a", .str "b"] }) },
      { shape := some (.array { items := some 3, minItems := some 1, maxItems := some 2 }) },
      { shape := some (.integer { minimum := some 1, maximum := some 3, format := some "int8" }) }]
    pmaps := [[("kind", ⟨"kind", 1, true⟩), ("list", ⟨"list", 2, false⟩)]] }

/-- The hypotheses of C22 are met by a nested type, which passes; crossing the innermost bounds makes the check fail. -/
example : Closed exCheck ∧ NoInfinitePath exCheck 0 ∧ RuntimeDiscriminators exCheck ∧ check exE exCheck 4 0 = .ok () ∧
    check exE { exCheck with bases := exCheck.bases.set 3 { shape := some (.integer { minimum := some 4, maximum := some 3 }) } }
      4 0 = .err "minimum must be less than or equal to maximum" := by
  have cases4 : ∀ (a : Nat) b, exCheck.base a = some b → a = 0 ∨ a = 1 ∨ a = 2 ∨ a = 3 := by
    intro a b h
    have : a < 4 := lt_of_get h
    omega
  have rank : ∀ (a : Nat) s (y : Nat), exCheck.shapeAt a = some s → ShapeEdge exCheck s y → 4 - y < 4 - a := by
    intro a s y hs he
    obtain ⟨b, hb1, hb2⟩ : ∃ b, exCheck.base a = some b ∧ b.shape = some s := by
      simpa [St.shapeAt, Option.bind_eq_some_iff] using hs
    rcases cases4 a b hb1 with rfl | rfl | rfl | rfl <;> cases hb1 <;> cases hb2 <;> cases he
    · rename_i hp
      simp [exCheck, St.props] at hp
      rcases hp with rfl | rfl <;> decide
    · rename_i hp
      simp [St.patProps] at hp
    · rename_i hp
      cases hp; decide
  refine ⟨?_, fun f _ => ?_, ?_, by decide +kernel, by decide +kernel⟩
  · intro a b h
    rcases cases4 a b h with rfl | rfl | rfl | rfl <;> cases h
    · exact ⟨_, rfl, by decide, by decide⟩
    · exact ⟨_, rfl, trivial⟩
    · refine ⟨_, rfl, ?_⟩; intro i hi; cases hi; decide
    · exact ⟨_, rfl, trivial⟩
  · by_contra hcon
    have hall : ∀ n, Refers exCheck (f n) (f (n + 1)) := fun n => by
      by_contra h'; exact hcon ⟨n, h'⟩
    have hdec : ∀ n : Nat, (4 - f n : Nat) + n ≤ 4 := by
      intro n
      induction n with
      | zero => exact Nat.sub_le 4 (f 0)
      | succ n ih =>
        obtain ⟨s, h1, h2⟩ := hall n
        have := rank _ s _ h1 h2
        omega
    have := hdec 5
    omega
  · intro a f hs
    obtain ⟨b, hb1, hb2⟩ : ∃ b, exCheck.base a = some b ∧ b.shape = some (.object f) := by
      simpa [St.shapeAt, Option.bind_eq_some_iff] using hs
    rcases cases4 a b hb1 with rfl | rfl | rfl | rfl <;> cases hb1 <;> cases hb2
    exact .str _

end GoRaml.Props
