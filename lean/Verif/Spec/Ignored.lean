import Verif.Spec.Decode

/-!
# Specification of declarations with type expressions (C70)
-/

namespace GoRaml.Spec

open GoRaml

/-- The expression, in any number of parentheses. -/
inductive Parens (e : Rdt) : Rdt → Prop where
  | none : Parens e e
  | more {t : Rdt} : Parens e t → Parens e (.group t)

/-- The declaration `v` is a mapping whose `type` is the type expression `e` (and not just a keyword, or a JSON schema). -/
def TypeGiven (v : YNode) (e : Rdt) : Prop :=
  v.kind = .mapping ∧ ∃ t, lastOf "type" (entriesOf v.content) = some t ∧ t.kind = .scalar ∧ t.tag = "!!str" ∧ t.value ∉ keywords ∧ t.value.toList.head? ≠ some '{' ∧
    parseTypeExpression t.value = some e

end GoRaml.Spec
