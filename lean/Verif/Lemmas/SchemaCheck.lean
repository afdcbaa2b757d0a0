import Verif.Lemmas.SchemaSem

/-!
# Checking that a type is in the scope of C50
-/

namespace GoRaml

open Spec

/-- A type without pattern properties and without numbers is in scope, and what it looks at is in `S`. -/
def scopeAt (h : St) (S : List Addr) (x : Addr) : Bool :=
  (nextOf h x).all (fun y => decide (y ∈ S)) && (headOf h x).all (fun y => decide (y ∈ S)) &&
  match h.shapeAt x with
  | some .any => true
  | some .nil => true
  | some (.recursive _) => true
  | some (.file _) => true
  | some (.array f) => f.uniqueItems.isNone
  | some (.boolean e) => e.isNone
  | some (.integer f) => f.multipleOf.isNone && f.enum.isNone
  | some (.string f) => f.pattern.isNone && f.enum.isNone
  | some (.union l _) => !(h.slice l).isEmpty
  | some (.object f) => decide (((h.props f.properties).map (·.1)).Nodup) && (h.patProps f.patternProperties).isEmpty
  | _ => false

/-- The types that get definitions have different names. -/
def namesAt (h : St) (S : List Addr) (a : Addr) : Bool :=
  (a :: S.flatMap (headOf h)).all fun y => (a :: S.flatMap (headOf h)).all fun z =>
    decide ((h.base y).map (·.name) = (h.base z).map (·.name) → y = z)

theorem scope_mem {h : St} {S : List Addr} {a : Addr} (ha : a ∈ S) (hS : S.all (scopeAt h S) = true) {y : Addr} (hy : SchemaReach h a y) : y ∈ S := by
  refine reach_mem (fun x hx => ?_) ha hy
  have := List.all_eq_true.1 hS x hx
  unfold scopeAt at this
  simp only [Bool.and_eq_true, List.all_eq_true, decide_eq_true_eq] at this
  exact this.1

theorem scope_convertible (E : Ext) {h : St} {S : List Addr} {a : Addr} (ha : a ∈ S) (hS : S.all (scopeAt h S) = true) : Convertible E h a := by
  intro y hy
  have := List.all_eq_true.1 hS y (scope_mem ha hS hy)
  unfold scopeAt at this
  rw [Bool.and_eq_true] at this
  have h2 := this.2
  cases hs : h.shapeAt y with
  | none => rw [hs] at h2; cases h2
  | some s =>
    rw [hs] at h2
    refine ⟨s, rfl, ?_⟩
    cases s <;> first | trivial | cases h2 | skip
    · rename_i f
      simp only [Bool.and_eq_true, decide_eq_true_eq, List.isEmpty_iff] at h2
      refine ⟨h2.1, ⟨?_, ?_, ?_⟩, fun hc => absurd h2.2 hc⟩ <;> simp [h2.2]
    · rename_i f
      simp only [Bool.and_eq_true, Option.isNone_iff_eq_none] at h2
      exact ⟨by simp [h2.1], by simp [h2.2]⟩
    · rename_i f
      simp only [Bool.and_eq_true, Option.isNone_iff_eq_none] at h2
      exact ⟨h2.1, by simp [h2.2]⟩
    · rename_i e
      simp only [Option.isNone_iff_eq_none] at h2
      simp [ConvertibleShape, h2]
    · simpa [ConvertibleShape] using h2

/-- Integers, strings, lists and maps are read alike by such types. -/
theorem scope_noNumber {h : St} {S : List Addr} {a : Addr} (ha : a ∈ S) (hS : S.all (scopeAt h S) = true) :
    (∀ f, ¬ Involved h a (.number f)) ∧ ∀ f, Involved h a (.array f) → f.uniqueItems = none := by
  constructor
  · rintro f ⟨y, hy, hs⟩
    have := List.all_eq_true.1 hS y (scope_mem ha hS hy)
    unfold scopeAt at this
    rw [hs] at this
    simp at this
  · rintro f ⟨y, hy, hs⟩
    have := List.all_eq_true.1 hS y (scope_mem ha hS hy)
    unfold scopeAt at this
    rw [hs, Bool.and_eq_true] at this
    simpa using this.2

theorem scope_distinct {h : St} {S : List Addr} {a : Addr} (ha : a ∈ S) (hS : S.all (scopeAt h S) = true) (hn : namesAt h S a = true) :
    DistinctNames h a := by
  have key : ∀ y, DefinedBy h a y → y ∈ a :: S.flatMap (headOf h) := by
    rintro y (rfl | ⟨x, hx, hs⟩)
    · simp
    · refine List.mem_cons_of_mem _ (List.mem_flatMap.2 ⟨x, scope_mem ha hS hx, ?_⟩)
      simp [headOf, hs]
  intro y z b c hy hz hb hc hbc
  have := List.all_eq_true.1 (List.all_eq_true.1 hn y (key y hy)) z (key z hz)
  simp only [decide_eq_true_eq] at this
  exact this (by rw [hb, hc]; simp [hbc])

end GoRaml
