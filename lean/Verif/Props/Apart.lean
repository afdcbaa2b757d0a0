import Verif.Lemmas.ApartResolve
import Verif.Spec.Apart
import Verif.Props.Lineage

/-!
# Parsed types share no parts (C67)
-/

namespace GoRaml.Props

open GoRaml GoRaml.Spec

/-- C67: the types of a parsed model share no parts, whatever the files are and whether or not parsing succeeds. -/
theorem c67_share_nothing (E : Env) (n m : Nat) (path : String) : ShareNothing (parseFromPath E n m path {}).2 := Apart.parsed_own.share

/-- An entry of a map, computed. -/
theorem exHeld {s : St} {m : Nat} {k : String} {x : Addr} (h : (s.pmaps[m]?).map (fun l => l.any fun e => e.1 == k && e.2.base == x) = some true) : HeldAt s (.property m k) x := by
  obtain ⟨l, h1, h2⟩ := Option.map_eq_some_iff.1 h
  obtain ⟨e, h3, h4⟩ := List.any_eq_true.1 h2
  simp only [Bool.and_eq_true, beq_iff_eq] at h4
  obtain ⟨rfl, rfl⟩ := h4
  exact .property h1 h3

/-- Items, computed. -/
theorem exHeldItems {s : St} {a x : Addr} (h : (s.base a).map (fun b => match b.shape with | some (.array f) => f.items | _ => none) = some (some x)) : HeldAt s (.items a) x := by
  obtain ⟨b, h1, h2⟩ := Option.map_eq_some_iff.1 h
  cases hs : b.shape with
  | none => rw [hs] at h2; cases h2
  | some q =>
    rw [hs] at h2
    cases q <;> first | exact .items h1 hs h2 | cases h2

/-- A member, computed. -/
theorem exHeldMember {s : St} {a x : Addr} {i : Nat}
    (h : (s.base a).map (fun b => match b.shape with | some (.union (some j) _) => (s.slices[j]?).bind (·[i]?) | _ => none) = some (some x)) : HeldAt s (.member a i) x := by
  obtain ⟨b, h1, h2⟩ := Option.map_eq_some_iff.1 h
  cases hs : b.shape with
  | none => rw [hs] at h2; cases h2
  | some q =>
    rw [hs] at h2
    cases q with
    | union j e =>
      cases j with
      | none => cases h2
      | some j =>
        obtain ⟨l, h3, h4⟩ := Option.bind_eq_some_iff.1 h2
        exact .member h1 hs h3 h4
    | _ => cases h2

/-- Not vacuous: in a model reached by parsing, references to types from a property, an array and a union are parts of their own that refer to the declared type. -/
example :
    parseFromPath exLevelsEnv 20 20 "a.raml" {} = (.ok (.library 0), exLevelsModel) ∧
    HeldAt exLevelsModel (.property 5 "level") 5 ∧ HeldAt exLevelsModel (.items 6) 8 ∧ HeldAt exLevelsModel (.member 7 0) 9 ∧
    ReferredTo exLevelsModel 2 ∧ (exLevelsModel.base 8).map (·.alias) = some (some 2) := by
  have h8 : (exLevelsModel.base 8).map (·.alias) = some (some 2) := by decide +kernel
  refine ⟨exParses (by decide +kernel), exHeld (by decide +kernel), exHeldItems (by decide +kernel), exHeldMember (by decide +kernel), ?_, h8⟩
  obtain ⟨b, h1, h2⟩ := Option.map_eq_some_iff.1 h8
  exact .alias h1 h2

/-! ## After unwrapping -/

/-- An object type, and one built on it. -/
def exHeirs : List (String × String × YNode) := [
  ("a.raml", "#%RAML 1.0 Library\na", exDoc [
    ("types", exMap [
      ("Base", exMap [("properties", exMap [("id", .str "string")])]),
      ("Child", exMap [("type", .str "Base"), ("properties", exMap [("name", .str "string")])])])])]

/-- Parsed. -/
def exHeirsModel : St := (parseFromPath (exFilesEnv exHeirs) 20 20 "a.raml" {}).2

/-- Parsed and unwrapped. -/
def exHeirsUnwrapped : St := (unwrapShapes 20 (exHeirsModel.fragments.map (·.2)) (exHeirsModel.fragments.map (·.2)) exHeirsModel).2

/-- Parsing is what the claim is about: unwrapping makes a type and its parent hold the same inherited property. -/
theorem c67_shared_after_unwrapping :
    parseFromPath (exFilesEnv exHeirs) 20 20 "a.raml" {} = (.ok (.library 0), exHeirsModel) ∧
    unwrapShapes 20 (exHeirsModel.fragments.map (·.2)) (exHeirsModel.fragments.map (·.2)) exHeirsModel = (.ok (), exHeirsUnwrapped) ∧
    ¬ ShareNothing exHeirsUnwrapped := by
  refine ⟨exParses (by decide +kernel), exUnwraps (by decide +kernel), fun h => ?_⟩
  have h1 : HeldAt exHeirsUnwrapped (.property 1 "id") 1 := exHeld (by decide +kernel)
  have h2 : HeldAt exHeirsUnwrapped (.property 4 "id") 1 := exHeld (by decide +kernel)
  exact absurd (h.once _ _ _ h1 h2) (by simp)

end GoRaml.Props
