import Verif.Model.Parse

/-!
# Which types a type needs before it can be resolved itself
-/

namespace GoRaml.Spec

/-- The reference an expression consists of, perhaps in parentheses. -/
def headRef : Rdt → Option (String × Option String)
  | .ref x y => some (x, y)
  | .group e => headRef e
  | _ => none

/-- To resolve the type at `a`, the type at `x` must be resolved first.  The type at `a` is not resolved yet, and
* it is given by `!include`, and `x` is the type of the included file; or
* it has several parents, and `x` is one of them; or
* its expression is a reference, and `x` is what the name stands for in the file of `a`.  (A reference to itself is found out, and does not count.)
An array, a union or an optional type needs nothing: its parts are resolved afterwards. -/
def Needs (s : St) (a x : Addr) : Prop :=
  ∃ b facets, s.base a = some b ∧ b.shape = some (.unknown facets) ∧
    ((∃ d, b.link = some d ∧ (s.dts[d]?).bind (·.shape) = some x) ∨
     (b.link = none ∧ b.type = "composite" ∧ x ∈ s.slice b.inherits) ∨
     (b.link = none ∧ b.type ≠ "composite" ∧ ∃ tree n m, parseTypeExpression b.type = some tree ∧ headRef tree = some (n, m) ∧
       getReferenced s Lib.types (refText n m) b.location = .ok x ∧ ∀ bx, s.base x = some bx → bx.id ≠ b.id))

/-- The type at `a` is a reference, in parentheses or not, to the type at `x`, which is another one. -/
def RefersTo (s : St) (a x : Addr) : Prop :=
  ∃ b facets tree n m bx, s.base a = some b ∧ b.shape = some (.unknown facets) ∧ b.link = none ∧ b.type ≠ "composite" ∧
    parseTypeExpression b.type = some tree ∧ headRef tree = some (n, m) ∧ getReferenced s Lib.types (refText n m) b.location = .ok x ∧
    s.base x = some bx ∧ bx.id ≠ b.id

/-- The states that loading a file goes through: after all files have been decoded, and then after each type that is resolved, in the order of the list. -/
inductive Reached (E : Env) : St → Prop where
  | decoded {n : Nat} {text path : String} {f : FragRef} {s : St} : E.file path = some text → decodeEntry E n text path {} = (.ok f, s) → Reached E s
  | resolved {n : Nat} {a : Addr} {l : List Addr} {s s' : St} : Reached E s → s.unresolved = a :: l → resolveShape E n a s = (.ok (), s') →
      Reached E { s' with unresolved := s'.unresolved.tail }

/-- The type at `a`, if it is not resolved yet, is in a file that has been loaded. -/
def InLoadedFile (s : St) : Prop := ∀ a b f, s.base a = some b → b.shape = some (.unknown f) → ∃ g, getFragment s b.location = some g

end GoRaml.Spec
