import Verif.Lemmas.Graph
import Verif.Model.Validate

/-! Types with the same structure give the same validation outcome. -/

namespace GoRaml

open Spec

variable {E : Ext} {rec rec' : Addr → GoVal → Out Unit} {R : Addr → Addr → Prop}
  (hR : ∀ x y, R x y → ∀ v, rec' y v = rec x v)
include hR

theorem validateItems_bisim {i j : Option Addr} (h : BothOr R i j) (u : Bool) (l : List GoVal) :
    ∀ seen, validateItems E rec' j u l seen = validateItems E rec i u l seen := by
  have hi : ∀ x, validateItem rec' j x = validateItem rec i x := by
    intro x
    cases i <;> cases j <;> simp only [BothOr, validateItem] at h ⊢
    exact hR _ _ h x
  induction l with
  | nil => intro seen; rfl
  | cons x xs ih =>
    intro seen
    simp only [validateItems, hi]
    congr 1; funext _
    split
    · split
      · rfl
      · exact ih _
    · exact ih _

theorem get_bisim {ps ps' : OMap Property} (h : SameProps R ps ps') (k : String) :
    BothOr (fun p q => R p.base q.base ∧ q.required = p.required) (OMap.get ps k) (OMap.get ps' k) := by
  unfold SameProps at h
  induction h with
  | nil => trivial
  | @cons p q _ _ hpq _ ih =>
    obtain ⟨h1, h2, h3, h4⟩ := hpq
    simp only [OMap.get]
    rw [h1]
    by_cases hk : p.1 = k
    · simp [hk, BothOr, h4, h3]
    · simp [hk]; exact ih

theorem missing_bisim {ps ps' : OMap Property} (h : SameProps R ps ps') (m : List (String × GoVal)) :
    findMissingRequired ps' m = findMissingRequired ps m := by
  unfold SameProps at h
  induction h with
  | nil => rfl
  | @cons p q _ _ hpq _ ih =>
    obtain ⟨h1, h2, h3, h4⟩ := hpq
    simp only [findMissingRequired] at ih ⊢
    simp only [List.filter_cons, h1, h3]
    split
    · simp [ih, h1]
    · exact ih

theorem pattern_bisim {ps ps' : OMap PatternProperty} (h : SamePatProps R ps ps') (k : String) (x : GoVal) :
    ∀ e, validatePatternProperty E rec' k x ps' e = validatePatternProperty E rec k x ps e := by
  unfold SamePatProps at h
  induction h with
  | nil => intro e; rfl
  | @cons p q _ _ hpq _ ih =>
    obtain ⟨h1, h2, h4⟩ := hpq
    intro e
    obtain ⟨pk, pp⟩ := p
    obtain ⟨qk, qq⟩ := q
    simp only at h1 h2 h4
    simp only [validatePatternProperty, h2, hR _ _ h4, ih]

theorem union_bisim {l l' : List Addr} (h : List.Forall₂ R l l') (v : GoVal) :
    unionValidate rec' v l' = unionValidate rec v l := by
  induction h with
  | nil => rfl
  | cons hxy _ ih => simp only [unionValidate, hR _ _ hxy, ih]

theorem validateShape_bisim {h h' : St} {s s' : Shape} (hs : SameShape R R h h' s s') (v : GoVal) :
    validateShape E rec' h' s' v = validateShape E rec h s v := by
  cases s <;> cases s' <;> simp only [SameShape, reduceCtorEq] at hs
  all_goals try (cases hs; rfl)
  · obtain ⟨h1, h2, h3, h4, h5, h6, h7⟩ := hs
    rename_i f g
    have hp : SameProps R (h.props f.properties) (h'.props g.properties) := by
      cases hf : f.properties <;> cases hg : g.properties <;> rw [hf, hg] at h6
      · exact List.Forall₂.nil
      · exact h6.elim
      · exact h6.elim
      · exact h6
    have hq : SamePatProps R (h.patProps f.patternProperties) (h'.patProps g.patternProperties) := by
      cases hf : f.patternProperties <;> cases hg : g.patternProperties <;> rw [hf, hg] at h7
      · exact List.Forall₂.nil
      · exact h7.elim
      · exact h7.elim
      · exact h7
    have he : ∀ c kv, validateEntry E rec' (h'.props g.properties) (h'.patProps g.patternProperties) c kv =
        validateEntry E rec (h.props f.properties) (h.patProps f.patternProperties) c kv := by
      intro c kv
      simp only [validateEntry]
      have := get_bisim hR hp kv.1
      cases h8 : OMap.get (h.props f.properties) kv.1 <;>
        cases h9 : OMap.get (h'.props g.properties) kv.1 <;> rw [h8, h9] at this
      · simp only [pattern_bisim hR hq]
      · exact this.elim
      · exact this.elim
      · exact hR _ _ this.1 _
    simp only [validateShape, objectValidate, h3, h4, h5, missing_bisim hR hp]
    congr 2
    funext m
    rw [show validateEntry E rec' (h'.props g.properties) (h'.patProps g.patternProperties)
        (f.additionalProperties == some false) = validateEntry E rec (h.props f.properties)
        (h.patProps f.patternProperties) (f.additionalProperties == some false) from funext (he _)]
  · obtain ⟨h1, h2, h3, h4⟩ := hs
    simp only [validateShape, arrayValidate, h1, h2, h3, validateItems_bisim hR h4]
  · obtain ⟨h1, h2⟩ := hs
    exact union_bisim hR h2 v
  · exact hR _ _ hs v

omit hR in
theorem validate_bisim (E : Ext) {h h' : St} {R : Addr → Addr → Prop}
    (hb : ∀ x y, R x y → BothOr (SameShape R R h h') (h.shapeAt x) (h'.shapeAt y)) (n : Nat) :
    ∀ x y v, R x y → validate E h' n y v = validate E h n x v := by
  induction n with
  | zero => intros; rfl
  | succ n ih =>
    intro x y v hxy
    have := hb x y hxy
    simp only [validate]
    cases h1 : h.shapeAt x <;> cases h2 : h'.shapeAt y <;> simp only [h1, h2, BothOr] at this ⊢
    · exact validateShape_bisim (fun x y hxy v => ih x y v hxy) this v

end GoRaml
