import Verif.Spec.Load
import Verif.Spec.Valid

/-!
# What type expressions mean (C33)
-/

namespace GoRaml.Spec

open GoRaml

/-- A Go number. -/
def IsNumber (v : GoVal) : Prop := (∃ z, v = .int z) ∨ (∃ n, v = .uint n) ∨ ∃ x, v = .float x

/-- The values of a keyword. -/
def KeywordOK (E : Ext) (v : GoVal) : Prim → Prop
  | .string => ∃ s, v = .str s
  | .integer => IsNumber v
  | .number => IsNumber v
  | .boolean => ∃ b, v = .bool b
  | .datetime => ∃ s, v = .str s ∧ E.timeParse "2006-01-02T15:04:05Z07:00" s = true
  | .timeOnly => ∃ s, v = .str s ∧ E.timeParse "15:04:05" s = true
  | .datetimeOnly => ∃ s, v = .str s ∧ E.timeParse "2006-01-02T15:04:05" s = true
  | .dateOnly => ∃ s, v = .str s ∧ E.timeParse "2006-01-02" s = true
  | .file => ∃ s, v = .str s
  | .nil => v = .nil
  | .any => True
  | .array => ∃ l, v = .arr l
  | .object => ∃ m, v = .map m
  | .union => False

/-- The values of a type expression; `refs` says which values the named types have.
`T?` has nil and the values of `T`, `T[]` the arrays of values of `T`, `A | B` the values of `A` and of `B`, and parentheses change nothing. -/
def Meaning (E : Ext) (refs : String → GoVal → Prop) : Rdt → GoVal → Prop
  | .prim p, v => KeywordOK E v p
  | .ref x none, v => refs x v
  | .ref x (some y), v => refs (x ++ "." ++ y) v
  | .group e, v => Meaning E refs e v
  | .optional e, v => Meaning E refs e v ∨ v = .nil
  | .array e, v => ∃ l, v = .arr l ∧ ∀ x ∈ l, Meaning E refs e x
  | .union a b, v => Meaning E refs a v ∨ Meaning E refs b v

end GoRaml.Spec
