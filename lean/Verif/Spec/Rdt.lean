import Verif.Model.Rdt

/-!
# Specification of type expressions (C32): the grammar as a derivation relation
-/

namespace GoRaml.Spec

open GoRaml

/-- Nonterminals of rdt/rdtParser.g4; `atom` stands for the choice `primitive | group | reference` that occurs in three rules. -/
inductive Nonterminal where
  | atom
  | type
  | expression

/-- `Derives n t l`: the grammar derives the tokens `l` from `n`, with parse tree `t`.  One rule per alternative of the grammar. -/
inductive Derives : Nonterminal → Rdt → List Tok → Prop
  | primitive (p : Prim) : Derives .atom (.prim p) [.prim p]
  | reference (a : String) : Derives .atom (.ref a none) [.ident a]
  | qualified (a b : String) : Derives .atom (.ref a (some b)) [.ident a, .dot, .ident b]
  | group {e l} : Derives .expression e l → Derives .atom (.group e) (.lparen :: l ++ [.rparen])
  | atom {e l} : Derives .atom e l → Derives .type e l
  | array {e l} : Derives .atom e l → Derives .type (.array e) (l ++ [.arrayNotation])
  | optional {e l} : Derives .atom e l → Derives .type (.optional e) (l ++ [.optionalNotation])
  | type {e l} : Derives .type e l → Derives .expression e l
  | union {a b l m} : Derives .type a l → Derives .expression b m → Derives .expression (.union a b) (l ++ .pipe :: m)

/-- Names that can occur in an expression as one identifier: identifier characters only, not a single dot, not a keyword. -/
def IsName (s : String) : Prop :=
  s ≠ "" ∧ s ≠ "." ∧ (∀ c ∈ s.toList, isIdentChar c = true) ∧ ∀ p : Prim, s ≠ p.text

/-- The names in an expression are names. -/
def Named : Rdt → Prop
  | .prim _ => True
  | .ref a none => IsName a
  | .ref a (some b) => IsName a ∧ IsName b
  | .group e => Named e
  | .array e => Named e
  | .optional e => Named e
  | .union a b => Named a ∧ Named b

/-- How an expression is written: the usual notation. -/
def show_ : Rdt → String
  | .prim p => p.text
  | .ref a none => a
  | .ref a (some b) => a ++ " . " ++ b
  | .group e => "(" ++ show_ e ++ ")"
  | .array e => show_ e ++ "[]"
  | .optional e => show_ e ++ "?"
  | .union a b => show_ a ++ " | " ++ show_ b

/-- Trees of a nonterminal: the operand of `[]` and `?` is a primitive, a group or a reference; union members are types. -/
inductive IsTree : Nonterminal → Rdt → Prop
  | prim (p) : IsTree .atom (.prim p)
  | ref (a b) : IsTree .atom (.ref a b)
  | group {e} : IsTree .expression e → IsTree .atom (.group e)
  | atom {e} : IsTree .atom e → IsTree .type e
  | array {e} : IsTree .atom e → IsTree .type (.array e)
  | optional {e} : IsTree .atom e → IsTree .type (.optional e)
  | type {e} : IsTree .type e → IsTree .expression e
  | union {a b} : IsTree .type a → IsTree .expression b → IsTree .expression (.union a b)

end GoRaml.Spec
