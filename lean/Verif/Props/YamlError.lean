import Verif.Lemmas.YamlError

/-!
# What becomes of errors of the YAML decoder (C72)
-/

namespace GoRaml.Props

open GoRaml GoRaml.Spec GoRaml.YErr

variable (strip : String → String → String)

/-- C72: an error without a type error of the YAML decoder inside is left as it is. -/
theorem c72_unchanged {e : GoError} (h : NoTypeError e) : fixYamlError strip (some e) = some e := by
  simp only [fixYamlError, get_eq, as_none.2 h]

/-- C72: otherwise the result is a plain error whose text is the messages of one of the type errors inside, with ": " between them, and nothing else. -/
theorem c72_messages {e : GoError} {y : List String} (h : Inside e (.type y)) :
    ∃ z, Inside e (.type z) ∧ fixYamlError strip (some e) = some (.plain (String.intercalate ": " z)) := by
  cases hd : errorsAs e with
  | none => exact (as_of_inside h hd).elim
  | some z => exact ⟨z, inside_of_as hd, by simp only [fixYamlError, get_eq, hd]⟩

/-- C72, a consequence: of an error with one type error inside all of its messages are kept. -/
theorem c72_only {e : GoError} {y : List String} (h : Inside e (.type y)) (hu : ∀ z, Inside e (.type z) → z = y) :
    fixYamlError strip (some e) = some (.plain (String.intercalate ": " y)) := by
  obtain ⟨z, hz, hf⟩ := c72_messages strip h
  rw [hf, hu z hz]

/-- C72: fixing twice is fixing once, and the result has no type error inside. -/
theorem c72_idempotent (e : Option GoError) : fixYamlError strip (fixYamlError strip e) = fixYamlError strip e := by
  cases e with
  | none => rfl
  | some e =>
    cases hd : errorsAs e with
    | none => simp only [fixYamlError, get_eq, hd]
    | some y => simp only [fixYamlError, get_eq, hd, errorsAs]

/-- The code is written to put what wrapped the type error before its messages.  It never does: whatever wrapped it is lost. -/
theorem c72_context_lost {e : GoError} {y : List String} (h : Inside e (.type y)) (t : String) : fixYamlError strip (some (.wrap t e)) = fixYamlError strip (some e) := by
  cases hd : errorsAs e with
  | none => exact (as_of_inside h hd).elim
  | some z => simp only [fixYamlError, get_eq, errorsAs, hd]

/-- An error as the decoder gives it for an included file, wrapped twice. -/
def exWrapped : GoError := .wrap "parse a.raml: decode: yaml: unmarshal errors:\n  line 2: cannot unmarshal" (.wrap "decode: yaml: unmarshal errors:\n  line 2: cannot unmarshal" (.type ["line 2: cannot unmarshal"]))

example : Inside exWrapped (.type ["line 2: cannot unmarshal"]) ∧ (∀ z, Inside exWrapped (.type z) → z = ["line 2: cannot unmarshal"]) ∧ NoTypeError (.wrap "open a.raml: not found" (.plain "not found")) ∧
    fixYamlError strip (some exWrapped) = some (.plain "line 2: cannot unmarshal") := by
  refine ⟨.wrap (.wrap .self), fun z hz => ?_, fun es h => ?_, ?_⟩
  · cases hz with
    | wrap h => cases h with
      | wrap h => cases h; rfl
  · cases h with
    | wrap h => cases h
  · simp [fixYamlError, get_eq, exWrapped, errorsAs]

/-- Of several type errors only one is kept. -/
theorem c72_others_lost : fixYamlError strip (some (.join "a\nb" [.type ["a"], .type ["b"]])) = some (.plain "a") := by
  simp [fixYamlError, get_eq, errorsAs, errorsAsList]

end GoRaml.Props
