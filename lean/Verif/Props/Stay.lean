import Verif.Lemmas.TagStayAll
import Verif.Props.Twice

/-!
# The fragments of an object over any calls (C87)
-/

namespace GoRaml.Props

open GoRaml GoRaml.Spec

/-- C87: after any calls of `ParseFromPath` on one object, successful or not, no path is registered twice. -/
theorem c87_paths_once (E : Env) (s : St) (h : AfterCalls E s) : (s.fragments.map (·.1)).Nodup :=
  Files.distinct_calls h

/-- C87: a call of `ParseFromPath`, from any state and however it ends, neither removes nor replaces a registered fragment. -/
theorem c87_fragments_stay (E : Env) (n m : Nat) (path : String) (s : St) (p : String) (f : FragRef) (h : getFragment s p = some f) :
    getFragment (parseFromPath E n m path s).2 p = some f :=
  (Files.parseFromPath_does s).2 p f h

/-- C87: neither does one with options, nor `ParseFromString`, in whatever order the fragments are visited. -/
theorem c87_fragments_stay_with (E : Env) (ord : Orders) (n m : Nat) (o : ParseOpts) (s : St) (p : String) (f : FragRef) (h : getFragment s p = some f) :
    (∀ path, getFragment (parseWith E ord n m path o s).2 p = some f) ∧
    ∀ content fileName baseDir, getFragment (parseStringWith E ord n m content fileName baseDir o s).2 p = some f :=
  ⟨fun path => (Stay.parseWith_does E ord n m path o s).2 p f h, fun content fileName baseDir => (Stay.parseStringWith_does E ord n m content fileName baseDir o s).2 p f h⟩

/-- C87: `UnwrapShapes` and `ValidateShapes` leave all fragments as they are registered, from any state and however they end. -/
theorem c87_fragments_same (n : Nat) (frags frags' : List FragRef) (E : Ext) (ord : OMap Property → OMap Property) (s : St) :
    (unwrapShapes n frags frags' s).2.fragments = s.fragments ∧ (validateShapes E ord frags n s).2.fragments = s.fragments :=
  ⟨(Stay.nkeep_unwrapShapes n frags frags' s).frags, (Stay.nkeep_validateShapes E ord frags n s).frags⟩

/-- The hypotheses are met by a model with a fragment, and by a call on it that fails. -/
example : AfterCalls (exTwiceEnv false) (exTwiceModel false) ∧ getFragment (exTwiceModel false) "a.raml" = some (.library 0) ∧
    parseFromPath (exTwiceEnv false) 20 20 "b.raml" (exTwiceModel false) = (.err "open fragment file", exTwiceModel false) :=
  ⟨Files.calls_successes (.call .none (n := 20) (m := 20) (path := "a.raml") (by decide +kernel) (exParses c85_types_gone.1)), by decide +kernel, rfl⟩

end GoRaml.Props
