import Verif.Spec.Flat
import Mathlib.Logic.Relation

/-!
# Specification: unions that do not contain themselves (C78)
-/

namespace GoRaml.Spec

open GoRaml

/-- `m` is a member of the union `a`. -/
def UnionMember (s : St) (a m : Addr) : Prop := ∃ u e, s.shapeAt a = some (.union u e) ∧ m ∈ s.slice u

/-- `a` is a reference to `t` without facets of its own. -/
def AliasOf (s : St) (a t : Addr) : Prop := ∃ b, s.base a = some b ∧ b.alias = some t

/-- No union contains itself as `A: A | string` does, directly or through members that are unions and through aliases.  (It may refer to itself in a property or
an item of a member.) -/
def NoUnionInItself (s : St) : Prop := ∀ a m, UnionMember s a m → ¬ Relation.ReflTransGen (fun x y => UnionMember s x y ∨ AliasOf s x y) m a

end GoRaml.Spec
