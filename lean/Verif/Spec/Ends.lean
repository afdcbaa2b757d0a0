import Verif.Spec.Refs

/-!
# The calls that parsing makes to resolve types
-/

namespace GoRaml.Spec

/-- While the type at `a` is resolved, starting in state `s`, the type at `x` has to be resolved, in state `t`: interrupting that one call interrupts the resolution, in state `t`. -/
def AsksFor (E : Env) (a : Addr) (s : St) (x : Addr) (t : St) : Prop :=
  ∃ n rec, (∀ y u, ¬ (y = x ∧ u = t) → rec y u = resolveShape E n y u) ∧ rec x t = (.panic "interrupted", t) ∧
    resolveStep E (calls E n) rec a s = (.panic "interrupted", t)

/-- The states of a parse in which the next type of the list is taken up: after decoding, and after each type, resolved or not. -/
inductive NextUp (E : Env) (text path : String) : St → Prop where
  | decoded {n : Nat} {f : FragRef} {s : St} : decodeEntry E n text path {} = (.ok f, s) → NextUp E text path s
  | resolved {n : Nat} {a : Addr} {l : List Addr} {s s' : St} : NextUp E text path s → s.unresolved = a :: l → resolveShape E n a s = (.ok (), s') →
      NextUp E text path { s' with unresolved := s'.unresolved.tail }
  | failed {n : Nat} {a : Addr} {l : List Addr} {s s' : St} {e : String} : NextUp E text path s → s.unresolved = a :: l → resolveShape E n a s = (.err e, s') →
      NextUp E text path { s' with unresolved := s'.unresolved.tail }

/-- Parsing the text comes to the point where the type at `a` has to be resolved, in state `s`. -/
inductive TakenUp (E : Env) (text path : String) : Addr → St → Prop where
  | listed {a : Addr} {l : List Addr} {s : St} : NextUp E text path s → s.unresolved = a :: l → TakenUp E text path a s
  | asked {a x : Addr} {s t : St} : TakenUp E text path a s → AsksFor E a s x t → TakenUp E text path x t

end GoRaml.Spec
