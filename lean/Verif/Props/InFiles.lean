import Verif.Props.Lineage

/-!
# Files that show where inheritance does not narrow (C16, C18, C19, C20, C28), and where the order of declarations counts (C20, C69)

The theorems of these properties about single calls are about types in memory.  Here the same happens to types that were parsed and unwrapped.
-/

namespace GoRaml.Props

open GoRaml GoRaml.Spec

/-- The file system with one library, `a.raml`; the numbers 2 and 4 are known. -/
def exLibEnv (types : List (String × YNode)) : Env :=
  { exFilesEnv [("a.raml", "#%RAML 1.0 Library\na", exDoc [("types", exMap types)])] with
    decodeUint := fun n => if n.value = "2" then some (some 2) else if n.value = "4" then some (some 4) else none }

/-- The library, parsed. -/
def exLibModel (types : List (String × YNode)) : St := (parseFromPath (exLibEnv types) 20 20 "a.raml" {}).2

/-- How unwrapping it ends. -/
def exLibUnwrap (types : List (String × YNode)) : Out Unit × St :=
  unwrapShapes 20 ((exLibModel types).fragments.map (·.2)) ((exLibModel types).fragments.map (·.2)) (exLibModel types)

/-- It is parsed and unwrapped, and has these types. -/
def ExUnwrapped (types : List (String × YNode)) (names : List (String × Addr)) (s : St) : Prop :=
  parseFromPath (exLibEnv types) 20 20 "a.raml" {} = (.ok (.library 0), exLibModel types) ∧ exLibUnwrap types = (.ok (), s) ∧
    s.fragments = [("a.raml", .library 0)] ∧ (s.libs[0]?).map (·.types) = some names

theorem exUnwrapped {types : List (String × YNode)} {names : List (String × Addr)} (h1 : exResult (parseFromPath (exLibEnv types) 20 20 "a.raml" {}) = some (.library 0))
    (h2 : exResult (exLibUnwrap types) = some ()) (h3 : (exLibUnwrap types).2.fragments = [("a.raml", .library 0)])
    (h4 : ((exLibUnwrap types).2.libs[0]?).map (·.types) = some names) : ExUnwrapped types names (exLibUnwrap types).2 := by
  refine ⟨exParses h1, ?_, h3, h4⟩
  cases hd : exLibUnwrap types with
  | mk o t =>
    rw [hd] at h2
    cases o <;> simp_all [exResult]

/-! ## Closed objects -/

/-- A closed object type, an heir that opens it and an heir with one more property. -/
def exClosed : List (String × YNode) := [
  ("Base", exMap [("type", .str "object"), ("additionalProperties", .str "false")]),
  ("Open", exMap [("type", .str "Base"), ("additionalProperties", .str "true")]),
  ("More", exMap [("type", .str "Base"), ("properties", exMap [("x", .str "string")])])]

/-- C16 in files: `Open` and `More` are built on `Base` and accept what `Base` rejects. -/
theorem c16_in_files : ∃ s, ExUnwrapped exClosed [("Base", 0), ("Open", 1), ("More", 2)] s ∧ Rejects exE s 0 (.map [("x", .str "a")]) ∧
    Accepts exE s 1 (.map [("x", .str "a")]) ∧ Accepts exE s 2 (.map [("x", .str "a")]) :=
  ⟨_, exUnwrapped (by decide +kernel) (by decide +kernel) (by decide +kernel) (by decide +kernel), ⟨20, "unexpected additional property", by decide +kernel⟩, ⟨20, by decide +kernel⟩,
    ⟨20, by decide +kernel⟩⟩

/-! ## Unions -/

/-- A property of a union type, and an heir that declares it again: the first member for strings is not compatible, the second is. -/
def exMembers : List (String × YNode) := [
  ("Base", exMap [("properties", exMap [("p", .str "Long | integer")])]),
  ("Long", exMap [("type", .str "string"), ("minLength", .str "4")]),
  ("Heir", exMap [("type", .str "Base"), ("properties", exMap [("p", .str "Two | Four | integer")])]),
  ("Two", exMap [("type", .str "string"), ("minLength", .str "2"), ("maxLength", .str "2")]),
  ("Four", exMap [("type", .str "string"), ("maxLength", .str "4")])]

/-- C18 in files: the heir declares strings of two and of at most four characters, and accepts one of six. -/
theorem c18_in_files : ∃ s, ExUnwrapped exMembers [("Base", 0), ("Long", 2), ("Heir", 3), ("Two", 4), ("Four", 5)] s ∧ Rejects exE s 4 (.str "abcdef") ∧
    Rejects exE s 5 (.str "abcdef") ∧ Accepts exE s 3 (.map [("p", .str "abcdef")]) :=
  ⟨_, exUnwrapped (by decide +kernel) (by decide +kernel) (by decide +kernel) (by decide +kernel), ⟨20, "length must be less than", by decide +kernel⟩,
    ⟨20, "length must be less than", by decide +kernel⟩, ⟨20, by decide +kernel⟩⟩

/-- An integer property, and an heir that declares it again as a union. -/
def exToUnion : List (String × YNode) := [
  ("Base", exMap [("properties", exMap [("p", .str "integer")])]),
  ("Heir", exMap [("type", .str "Base"), ("properties", exMap [("p", .str "string | boolean")])])]

/-- C19 in files: the heir accepts a string where its parent wants an integer. -/
theorem c19_in_files : ∃ s, ExUnwrapped exToUnion [("Base", 0), ("Heir", 2)] s ∧ Rejects exE s 0 (.map [("p", .str "a")]) ∧ Accepts exE s 2 (.map [("p", .str "a")]) :=
  ⟨_, exUnwrapped (by decide +kernel) (by decide +kernel) (by decide +kernel) (by decide +kernel), ⟨20, "invalid type", by decide +kernel⟩, ⟨20, by decide +kernel⟩⟩

/-! ## The order of declarations -/

/-- A property of a union type. -/
def exChoice : String × YNode := ("Base", exMap [("properties", exMap [("p", .str "string | integer")])])
/-- An heir with a member of the union. -/
def exGoodHeir : String × YNode := ("Good", exMap [("type", .str "Base"), ("properties", exMap [("p", .str "string")])])
/-- An heir with another type. -/
def exBadHeir : String × YNode := ("Bad", exMap [("type", .str "Base"), ("properties", exMap [("p", .str "boolean")])])

/-- C20 in files: the heir that does not fit is an error, alone and if it is declared first; declared after another heir of the same parent it is accepted, and takes values that
the parent rejects. -/
theorem c20_in_files :
    exResult (parseFromPath (exLibEnv [exChoice, exBadHeir]) 20 20 "a.raml" {}) = some (.library 0) ∧
    (exLibUnwrap [exChoice, exBadHeir]).1 = .err "failed to find compatible union member" ∧
    (exLibUnwrap [exChoice, exBadHeir, exGoodHeir]).1 = .err "failed to find compatible union member" ∧
    ∃ s, ExUnwrapped [exChoice, exGoodHeir, exBadHeir] [("Base", 0), ("Good", 2), ("Bad", 3)] s ∧ Rejects exE s 0 (.map [("p", .bool true)]) ∧
      Accepts exE s 3 (.map [("p", .bool true)]) :=
  ⟨by decide +kernel, by decide +kernel, by decide +kernel, _, exUnwrapped (by decide +kernel) (by decide +kernel) (by decide +kernel) (by decide +kernel),
    ⟨20, "value does not match any type", by decide +kernel⟩, ⟨20, by decide +kernel⟩⟩

/-! ## More than one parent -/

/-- Two types and a third that is built on both. -/
def exBoth : List (String × YNode) := [
  ("A", exMap [("properties", exMap [("x?", .str "string")])]),
  ("B", exMap [("properties", exMap [("y", .str "integer")])]),
  ("C", exMap [("type", .mk .sequence "!!seq" "" [.str "A", .str "B"])])]

/-- C28 in files: `A`, which refers to no other type, accepts the empty object when it has been parsed, and rejects it after unwrapping, because `C` is built on `A` and `B`.
Without `C` it accepts it. -/
theorem c28_in_files : ∃ s, ExUnwrapped exBoth [("A", 0), ("B", 2), ("C", 4)] s ∧ Accepts exE (exLibModel exBoth) 0 (.map []) ∧ Rejects exE s 0 (.map []) ∧
    ∃ s', ExUnwrapped (exBoth.take 2) [("A", 0), ("B", 2)] s' ∧ Accepts exE s' 0 (.map []) :=
  ⟨_, exUnwrapped (by decide +kernel) (by decide +kernel) (by decide +kernel) (by decide +kernel), ⟨20, by decide +kernel⟩, ⟨20, "missing required properties", by decide +kernel⟩,
    _, exUnwrapped (by decide +kernel) (by decide +kernel) (by decide +kernel) (by decide +kernel), ⟨20, by decide +kernel⟩⟩

/-! ## Another name for a type that refers to it -/

/-- A recursive type that refers to itself by another name. -/
def exKnot : String × YNode := ("Node", exMap [("properties", exMap [("next?", .str "X"), ("value", .str "integer")])])
/-- That name. -/
def exOtherName : String × YNode := ("X", .str "Node")
/-- An object whose second link has a string where an integer is wanted. -/
def exBadLink : GoVal := .map [("value", .int 1), ("next", .map [("value", .str "x")])]

/-- C69 in files: why `X`, which is another name for `Node`, must not be recursive. If `X` is declared before `Node`, values of the property `next` are not checked; if it is declared
after `Node`, they are. The declarations are the same. -/
theorem c69_declaration_order :
    (∃ s, ExUnwrapped [exKnot, exOtherName] [("Node", 0), ("X", 3)] s ∧ Rejects exE s 0 exBadLink ∧ Rejects exE s 3 exBadLink) ∧
    ∃ s, ExUnwrapped [exOtherName, exKnot] [("X", 0), ("Node", 1)] s ∧ Accepts exE s 0 exBadLink ∧ Accepts exE s 1 exBadLink :=
  ⟨⟨_, exUnwrapped (by decide +kernel) (by decide +kernel) (by decide +kernel) (by decide +kernel), ⟨20, "invalid type", by decide +kernel⟩, ⟨20, "invalid type", by decide +kernel⟩⟩,
    _, exUnwrapped (by decide +kernel) (by decide +kernel) (by decide +kernel) (by decide +kernel), ⟨20, by decide +kernel⟩, ⟨20, by decide +kernel⟩⟩

end GoRaml.Props
