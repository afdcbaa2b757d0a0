import Verif.Model.Cli
import Mathlib.Tactic.Common

/-!
# C47: the validate command
-/

namespace GoRaml

theorem validateLoop_spec (parse : String → Option String) (args : List String) (e : Option String) :
    (validateLoop parse args e).1 = args.map (fun a => if (parse a).isSome then Verdict.invalid a else .valid a) ∧
    (validateLoop parse args e).2 = match args.getLast? with | some a => parse a | none => e := by
  induction args generalizing e with
  | nil => exact ⟨rfl, rfl⟩
  | cons a args ih =>
    obtain ⟨h1, h2⟩ := ih (parse a)
    simp only [validateLoop]
    refine ⟨?_, ?_⟩
    · rw [h1, List.map_cons]
      cases parse a <;> rfl
    · rw [h2]
      cases args with
      | nil => rfl
      | cons b args =>
        rw [List.getLast?_cons_cons]
        cases hl : (b :: args).getLast? with
        | none => simp at hl
        | some c => rfl

/-- C47: the log names the right verdict for every argument, in order. -/
theorem c47_log (parse : String → Option String) (args : List String) :
    (validateExecute parse args).1 = args.map (fun a => if (parse a).isSome then Verdict.invalid a else .valid a) := by
  unfold validateExecute
  have h := (validateLoop_spec parse args none).1
  revert h
  rcases validateLoop parse args none with ⟨log, _ | e⟩ <;> exact id

/-- C47, what holds instead: the exit code is non-zero exactly when there is no argument or the last one is invalid. -/
theorem c47_last_decides (parse : String → Option String) (args : List String) :
    exitCode parse args = 0 ↔ ∃ init last, args = init ++ [last] ∧ parse last = none := by
  rcases List.eq_nil_or_concat args with rfl | ⟨init, last, rfl⟩
  · simp [exitCode]
  · rw [List.concat_eq_append]
    have h := (validateLoop_spec parse (init ++ [last]) none).2
    rw [List.getLast?_append, List.getLast?_singleton, Option.some_or] at h
    have he : exitCode parse (init ++ [last]) = if (parse last).isSome then 1 else 0 := by
      unfold exitCode validateExecute
      rw [if_neg (by simp)]
      revert h
      rcases validateLoop parse (init ++ [last]) none with ⟨log, e⟩
      intro h
      rw [show e = parse last from h]
      cases parse last <;> rfl
    rw [he]
    constructor
    · intro h0
      refine ⟨init, last, rfl, ?_⟩
      cases hp : parse last with
      | none => rfl
      | some m => rw [hp] at h0; cases h0
    · rintro ⟨i, l, he, hp⟩
      obtain ⟨_, h2⟩ := List.append_inj' he rfl
      rw [show last = l by simpa using h2, hp]
      rfl

/-- C47, one direction: if the command fails for a non-empty list of arguments, some argument is invalid. -/
theorem c47_failure_is_real (parse : String → Option String) (args : List String) (h : args ≠ []) (hf : exitCode parse args ≠ 0) :
    ∃ a ∈ args, parse a ≠ none := by
  rcases List.eq_nil_or_concat args with rfl | ⟨init, last, rfl⟩
  · exact absurd rfl h
  · refine ⟨last, by simp, fun hn => hf ?_⟩
    rw [c47_last_decides]
    exact ⟨init, last, by simp, hn⟩

/-- C47, for one file: the command fails iff the file is invalid. -/
theorem c47_single (parse : String → Option String) (a : String) : exitCode parse [a] = 0 ↔ parse a = none := by
  rw [c47_last_decides]
  constructor
  · rintro ⟨init, last, he, hp⟩
    cases init with
    | nil => simp at he; rw [he]; exact hp
    | cons b init => simp at he
  · intro h; exact ⟨[], a, rfl, h⟩

/-- C47, violated: any number of invalid files, followed by a valid one, is reported as success. -/
theorem c47_invalid_ignored (parse : String → Option String) (bad : List String) (good : String) (hg : parse good = none) :
    exitCode parse (bad ++ [good]) = 0 :=
  (c47_last_decides parse _).2 ⟨bad, good, rfl, hg⟩

/-- Example: `raml validate bad.raml good.raml` exits with 0, the other order with 1. -/
example : let parse := fun p => if p = "bad.raml" then some "error" else none
    exitCode parse ["bad.raml", "good.raml"] = 0 ∧ exitCode parse ["good.raml", "bad.raml"] = 1 := by decide +kernel

end GoRaml
