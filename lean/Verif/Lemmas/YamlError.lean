import Verif.Spec.YamlError

/-!
# Errors of the YAML decoder: proofs
-/

namespace GoRaml.YErr

open GoRaml GoRaml.Spec

mutual
theorem inside_of_as : ∀ {e : GoError} {y : List String}, errorsAs e = some y → Inside e (.type y)
  | .type es, y, h => by cases h; exact .self
  | .plain _, y, h => by cases h
  | .wrap _ e, y, h => .wrap (inside_of_as h)
  | .join _ es, y, h => by
    obtain ⟨e, he, hi⟩ := inside_of_asList h
    exact .join he hi
theorem inside_of_asList : ∀ {es : List GoError} {y : List String}, errorsAsList es = some y → ∃ e ∈ es, Inside e (.type y)
  | [], y, h => by cases h
  | e :: es, y, h => by
    cases hd : errorsAs e with
    | some z =>
      simp only [errorsAsList, hd] at h
      cases h
      exact ⟨e, List.mem_cons_self .., inside_of_as hd⟩
    | none =>
      simp only [errorsAsList, hd] at h
      obtain ⟨e', he, hi⟩ := inside_of_asList h
      exact ⟨e', List.mem_cons_of_mem _ he, hi⟩
end

theorem asList_mem {es : List GoError} {e : GoError} (he : e ∈ es) (h : errorsAs e ≠ none) : errorsAsList es ≠ none := by
  induction es with
  | nil => cases he
  | cons x es ih =>
    cases hd : errorsAs x with
    | some z => simp [errorsAsList, hd]
    | none =>
      simp only [errorsAsList, hd]
      cases he with
      | head => exact absurd hd h
      | tail _ he => exact ih he

theorem as_of_inside {e : GoError} {y : List String} (h : Inside e (.type y)) : errorsAs e ≠ none := by
  generalize hz : GoError.type y = z at h
  induction h with
  | self => subst hz; simp [errorsAs]
  | wrap _ ih => simpa [errorsAs] using ih hz
  | join he _ ih => simpa [errorsAs] using asList_mem he (ih hz)

/-- The recursive branch is never taken. -/
theorem get_eq (strip : String → String → String) : ∀ e, getYamlError strip e = errorsAs e
  | .type _ => rfl
  | .plain _ => rfl
  | .join _ _ => rfl
  | .wrap t e => by
    have ih := get_eq strip e
    cases hd : errorsAs (.wrap t e) with
    | some y => simp only [getYamlError, hd]
    | none =>
      have : errorsAs e = none := hd
      simp only [getYamlError, hd, ih, this]

theorem as_none {e : GoError} : errorsAs e = none ↔ NoTypeError e :=
  ⟨fun h _ hi => as_of_inside hi h, fun h => by
    cases hd : errorsAs e with
    | none => rfl
    | some y => exact (h y (inside_of_as hd)).elim⟩

end GoRaml.YErr
