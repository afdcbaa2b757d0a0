import Verif.Lemmas.Rdt

/-!
# C32: type expressions are parsed by the grammar
-/

namespace GoRaml

open Spec

/-- C32: a token sequence is parsed to a tree iff the grammar derives the sequence with that tree. -/
theorem c32_parser_exact (ts : List Tok) (t : Rdt) : parseTokens ts = some t ↔ Derives .expression t ts := by
  constructor
  · intro h
    unfold parseTokens at h
    split at h
    · rename_i e he
      cases h
      obtain ⟨l, hl, hd⟩ := parse_sound _ _ _ _ he
      rw [List.append_nil] at hl
      rw [hl]; exact hd
    · cases h
  · intro h
    have := parse_complete h ts.length [] (Nat.le_refl _) (by simp [Follow])
    rw [List.append_nil] at this
    simp only [parserOf] at this
    unfold parseTokens
    rw [this]

/-- C32: the grammar is unambiguous. -/
theorem c32_unambiguous (ts : List Tok) (t t' : Rdt) (h : Derives .expression t ts) (h' : Derives .expression t' ts) : t = t' :=
  Option.some.inj (((c32_parser_exact ts t).2 h).symm.trans ((c32_parser_exact ts t').2 h'))

/-- C32: a tree of the grammar, written down in the usual notation, is read back as itself. -/
theorem c32_round_trip (t : Rdt) (ht : IsTree .expression t) (hn : Named t) : parseTypeExpression (show_ t) = some t := by
  unfold parseTypeExpression
  have h1 := tokenize_show t hn [] (by simp)
  rw [List.append_nil, tokenize_nil] at h1
  simp only [Option.map_some, List.append_nil] at h1
  rw [h1]
  exact (c32_parser_exact _ _).2 (derives_tokensOf ht)

/-- C32: everything accepted is a tree of the grammar. -/
theorem c32_accepted_is_tree (s : String) (t : Rdt) (h : parseTypeExpression s = some t) : IsTree .expression t := by
  unfold parseTypeExpression at h
  obtain ⟨ts, h1, h2⟩ := Option.bind_eq_some_iff.1 h
  have d := (c32_parser_exact ts t).1 h2
  clear h h1 h2
  generalize hn : Nonterminal.expression = nt at d
  clear hn
  induction d with
  | primitive p => exact .prim p
  | reference a => exact .ref a none
  | qualified a b => exact .ref a (some b)
  | group _ ih => exact .group ih
  | atom _ ih => exact .atom ih
  | array _ ih => exact .array ih
  | optional _ ih => exact .optional ih
  | type _ ih => exact .type ih
  | union _ _ ia ib => exact .union ia ib

/-- C32: blanks only separate: a text with a blank in it has the tokens of the two parts. -/
theorem c32_blanks (s t : List Char) :
    tokenize (s ++ ' ' :: t) = (tokenize s).bind fun a => (tokenize t).map (a ++ ·) :=
  tokenize_split t s.length s (Nat.le_refl _)

/-- C32: blanks before and after an expression change nothing. -/
theorem c32_outer_blanks (s : String) : parseTypeExpression (" " ++ s ++ " ") = parseTypeExpression s := by
  unfold parseTypeExpression
  have : (" " ++ s ++ " ").toList = ' ' :: (s.toList ++ ' ' :: []) := by simp [String.toList_append]
  rw [this, tokenize_blank _ (.inl rfl), c32_blanks, tokenize_nil]
  cases tokenize s.toList <;> simp

/-- Examples: a nested expression with a name from a library; words that begin like a keyword are names; errors. -/
example : parseTypeExpression "(lib.A | string?)[] | nil" =
    some (.union (.array (.group (.union (.ref "lib.A" none) (.optional (.prim .string))))) (.prim .nil)) := by decide +kernel

example : parseTypeExpression "strings | time-only" = some (.union (.ref "strings" none) (.prim .timeOnly)) := by decide +kernel

example : parseTypeExpression "A[][]" = none ∧ parseTypeExpression "A |" = none ∧ parseTypeExpression "" = none ∧
    parseTypeExpression "A B" = none ∧ parseTypeExpression "A, B" = none := by decide +kernel

example : let t := Rdt.union (.array (.group (.optional (.ref "lib.A" none)))) (.ref "a" (some "b"))
    IsTree .expression t ∧ Named t ∧ show_ t = "(lib.A?)[] | a . b" := by
  refine ⟨.union (.array (.group (.type (.optional (.ref _ _))))) (.type (.atom (.ref _ _))), ?_, by decide +kernel⟩
  simp only [Named, IsName]
  refine ⟨⟨by decide, by decide, by decide +kernel, fun p => by cases p <;> decide⟩,
    ⟨by decide, by decide, by decide +kernel, fun p => by cases p <;> decide⟩,
    ⟨by decide, by decide, by decide +kernel, fun p => by cases p <;> decide⟩⟩

end GoRaml
