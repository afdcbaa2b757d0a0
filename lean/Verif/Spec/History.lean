import Verif.Model.Parse

/-!
# Several calls on one object (C84)
-/

namespace GoRaml.Spec

open GoRaml

/-- The states of an object after any calls of `ParseFromPath` on it, successful or not. -/
inductive AfterCalls (E : Env) : St → Prop where
  | new : AfterCalls E {}
  | call {s : St} (n m : Nat) (path : String) : AfterCalls E s → AfterCalls E (parseFromPath E n m path s).2

/-- From the first state of the object to the second by calls of `ParseFromPath` that all succeed, each for a file that the object does not have yet. -/
inductive Successes (E : Env) (s : St) : St → Prop where
  | none : Successes E s s
  | call {t u : St} {n m : Nat} {path : String} {f : FragRef} : Successes E s t → getFragment t path = none → parseFromPath E n m path t = (.ok f, u) → Successes E s u

end GoRaml.Spec
