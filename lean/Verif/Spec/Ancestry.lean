import Verif.Model.Heap
import Mathlib.Logic.Relation

/-!
# What a type is built on (C80)
-/

namespace GoRaml.Spec

open GoRaml

/-- The type `a` is built directly on `x`: it is another name for `x`, it includes a file whose type is `x`, or `x` is one of its parents. -/
inductive DerivesFrom (s : St) (a x : Addr) : Prop where
  | «alias» {b : Base} : s.base a = some b → b.alias = some x → DerivesFrom s a x
  | include_ {b : Base} {d : Nat} {D : DT} : s.base a = some b → b.link = some d → s.dts[d]? = some D → D.shape = some x → DerivesFrom s a x
  | parent {b : Base} : s.base a = some b → x ∈ s.slice b.inherits → DerivesFrom s a x

/-- `x` is an ancestor of `a`. -/
def AncestorOf (s : St) (x a : Addr) : Prop := Relation.TransGen (DerivesFrom s) a x

end GoRaml.Spec
