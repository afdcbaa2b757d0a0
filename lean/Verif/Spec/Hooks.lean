import Verif.Model.Hooks

/-!
# Specification of hooks (C40): one plain list per key
-/

namespace GoRaml.Spec

open GoRaml HookSt

/-- The hooks of each key. -/
abbrev HookLists := String → List (Option Hook)

/-- Remove the first element with the given code. -/
def removeFirst (h : Option Hook) : List (Option Hook) → List (Option Hook)
  | [] => []
  | g :: l => if g.map Hook.code = h.map Hook.code then l else g :: removeFirst h l

/-- What a call of the hook API does to the lists. -/
def HookLists.apply (m : HookLists) : Op → HookLists
  | .append k h _ => fun k' => if k' = k then m k ++ [h] else m k'
  | .prepend k h _ => fun k' => if k' = k then h :: m k else m k'
  | .remove k h => fun k' => if k' = k then removeFirst h (m k) else m k'
  | .clear k => fun k' => if k' = k then [] else m k'

/-- The hooks called when the given ones are run: all non-nil ones in order, up to and including the first that fails. -/
def ran (fails : Hook → Option String) : List (Option Hook) → List Hook
  | [] => []
  | none :: l => ran fails l
  | some h :: l => h :: (match fails h with
    | some _ => []
    | none => ran fails l)

/-- The error of the first failing hook. -/
def firstError (fails : Hook → Option String) : List (Option Hook) → Option String
  | [] => none
  | none :: l => firstError fails l
  | some h :: l => match fails h with
    | some e => some e
    | none => firstError fails l

end GoRaml.Spec
