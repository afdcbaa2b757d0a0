import Verif.Model.Hooked

/-!
# What hooks may do (C74)
-/

namespace GoRaml.Spec

open GoRaml

/-- The hooks never fail. -/
def OnlyWatching (H : HookFn) : Prop := ∀ key args h, H key args h = .ok ()

/-- The hooks before one type inherits from another never fail. -/
def InheritanceUnhooked (H : HookFn) : Prop :=
  ∀ key args h, key = "BaseShape.Inherit" ∨ key = "BaseShape.inheritUnionSource" ∨ key = "BaseShape.inheritUnionTarget" → H key args h = .ok ()

/-- The same hooks, except that a hook that would return an error panics instead.  No function of the library recovers from a panic. -/
def panicking (H : HookFn) : HookFn := fun key args h =>
  match H key args h with
  | .err e => .panic e
  | o => o

/-- The hooks return an error, whatever the model, when they are called for this key with these parameters. -/
def Vetoes (H : HookFn) (key : String) (args : List HookArg) : Prop := ∀ h, ∃ e, H key args h = .err e

end GoRaml.Spec
