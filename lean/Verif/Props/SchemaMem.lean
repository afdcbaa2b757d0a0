import Verif.Lemmas.SchemaMem
import Verif.Props.Schema

/-!
# Copies of schemas share nearly nothing with the original (C71)
-/

namespace GoRaml.Props

open GoRaml GoRaml.Spec GoRaml.SMem

/-- A place in memory is at most one schema: the specification is not ambiguous. -/
theorem c71_one_schema {h : Mem} {a : Nat} {s t : JS} (hs : IsSchema h a s) (ht : IsSchema h a t) : s = t := isSchema_uniq hs ht

/-- What a schema is depends only on the objects it consists of, and these exist. -/
theorem c71_depends {h h' : Mem} {a : Nat} {s : JS} (hs : IsSchema h a s) :
    (∀ q, Consists h a q → IsCell h q) ∧ ((∀ q, Consists h a q → SameCell h h' q) → IsSchema h' a s) := by
  obtain ⟨n, hs⟩ := hs
  exact ⟨fun q hq => (consists_ok hs hq).isCell, fun he => ⟨n, isSchemaTo_same he .self hs⟩⟩

/-- C71: a copy of a schema ends, is the same schema, changes no object that existed, and consists of new objects only, except for numbers and booleans behind pointers
and for slices and maps without entries. -/
theorem c71_copy {h : Mem} {a : Nat} {s : JS} (hs : IsSchema h a s) : ∃ N, ∀ n, N ≤ n → ∃ c h', memCopy n a h = (.ok c, h') ∧ IsSchema h' c s ∧
    (∀ q, IsCell h q → SameCell h h' q) ∧ ∀ q, Consists h' c q → IsCell h q → Shared h q := by
  obtain ⟨N, hN⟩ := hs
  refine ⟨N, fun n hn => ?_⟩
  obtain ⟨c, h', e, i, p, q1, q2⟩ := recOk h n a s h (.refl h) (isSchemaTo_le hn hN)
  exact ⟨c, h', e, ⟨n, q1⟩, fun q hq => p.same hq, fun q hq => consists_new i q2 hq⟩

/-- The same for a given run. -/
theorem copied {h h' : Mem} {n a c : Nat} {s : JS} (hs : IsSchema h a s) (hc : memCopy n a h = (.ok c, h')) :
    IsSchema h' c s ∧ (∀ q, IsCell h q → SameCell h h' q) ∧ (∀ q, Consists h' c q → IsCell h q → Shared h q) ∧ ∀ q, Consists h' a q → Consists h a q := by
  obtain ⟨N, hN⟩ := c71_copy hs
  obtain ⟨c', t, e, e1, e2, e3⟩ := hN (max n N) (Nat.le_max_right ..)
  cases (memCopy_le (Nat.le_max_left n N) hc).symm.trans e
  refine ⟨e1, e2, e3, fun q hq => ?_⟩
  have hk := fun q hq => e2 q ((c71_depends (h' := h) hs).1 q hq)
  induction hq with
  | self => exact .self
  | field _ hx hp ih => exact .field ih ((hk _ ih).symm.trans hx) hp
  | member _ hl hb ih => exact .member ih ((hk _ ih).symm.trans hl) hb
  | entry _ hl hb ih => exact .entry ih ((hk _ ih).symm.trans hl) hb

/-- C71: later changes to objects of the copy, and new objects, leave the original as it is, if nothing is changed that can be shared. -/
theorem c71_edit_copy {h h' h'' : Mem} {n a c : Nat} {s : JS} (hs : IsSchema h a s) (hc : memCopy n a h = (.ok c, h'))
    (he : ∀ q, IsCell h' q → ¬ SameCell h' h'' q → Consists h' c q ∧ ¬ Shared h q) : IsSchema h' a s ∧ IsSchema h'' a s := by
  obtain ⟨_, e2, e3, e4⟩ := copied hs hc
  have hs' : IsSchema h' a s := (c71_depends hs).2 fun q hq => e2 q ((c71_depends (h' := h) hs).1 q hq)
  refine ⟨hs', (c71_depends hs').2 fun q hq => Classical.byContradiction fun hn => ?_⟩
  obtain ⟨h1, h2⟩ := he q ((c71_depends (h' := h) hs').1 q hq) hn
  exact h2 (e3 q h1 ((c71_depends (h' := h) hs).1 q (e4 q hq)))

/-- C71: and later changes to objects of the original leave the copy as it is. -/
theorem c71_edit_original {h h' h'' : Mem} {n a c : Nat} {s : JS} (hs : IsSchema h a s) (hc : memCopy n a h = (.ok c, h'))
    (he : ∀ q, IsCell h' q → ¬ SameCell h' h'' q → Consists h' a q ∧ ¬ Shared h q) : IsSchema h'' c s := by
  obtain ⟨e1, _, e3, e4⟩ := copied hs hc
  refine (c71_depends e1).2 fun q hq => Classical.byContradiction fun hn => ?_
  obtain ⟨h1, h2⟩ := he q ((c71_depends (h' := h) e1).1 q hq) hn
  exact h2 (e3 q hq ((c71_depends (h' := h) hs).1 q (e4 q h1)))

/-! An example: what the converter gives for an object type without properties and with `maxProperties: 3`. -/

def exPlainObj : St :=
  { bases := [{ name := "T", unwrapped := true, shape := some (.object { properties := some 0, maxProperties := some 3 }) }], pmaps := [[]] }

def exObjSchema : JS :=
  { core := { version := "http://json-schema.org/draft-07/schema", ref := "#/definitions/T" }
    definitions := [("T", some { core := { type := "object", maxProperties := some 3 }, properties := some [] })] }

def exObjMem : Mem :=
  { nodes := [{ flat := { version := "http://json-schema.org/draft-07/schema", ref := "#/definitions/T" }, definitions := some 0 },
              { flat := { type := "object" }, properties := some 1, maxProperties := some 0 }]
    maps := [[("T", some 1)], []], nats := [3] }

theorem exObj_converted : convert .plain exPlainObj 2 0 = .ok exObjSchema := rfl

theorem exObj_isSchema : IsSchema exObjMem 0 exObjSchema := by
  have h1 : IsSchemaTo exObjMem 1 1 { core := { type := "object", maxProperties := some 3 }, properties := some [] } := by
    refine ⟨_, rfl, ?_⟩
    constructor
    constructor
    all_goals simp [Deref, Contains, IsList, IsRef, IsMap, flatPart, exObjMem, IsEntries]
  refine ⟨2, _, rfl, ?_⟩
  constructor
  constructor
  all_goals simp [Deref, Contains, IsList, IsRef, IsMap, flatPart, exObjSchema, IsEntries]
  exact ⟨_, rfl, .cons ⟨rfl, h1⟩ .nil⟩

/-- The copy of the example. -/
def exObjCopy : Mem := (memCopy 2 0 exObjMem).2

theorem exObj_copied : memCopy 2 0 exObjMem = (.ok 3, exObjCopy) := rfl

/-- The edits are not vacuous: `copy.Definitions["T"].Type = ""` is one, and `Definitions` is not shared. -/
example : IsSchema { exObjCopy with nodes := exObjCopy.nodes.set 2 {} } 0 exObjSchema := by
  refine (c71_edit_copy exObj_isSchema exObj_copied fun q hq hn => ?_).2
  cases q with
  | node i =>
    by_cases hi : i = 2
    · subst hi
      exact ⟨.entry (i := 2) (k := "T") (.field .self rfl (.map (by decide))) rfl (by decide), id⟩
    · exact absurd (List.getElem?_set_ne (Ne.symm hi)) hn
  | _ => exact absurd rfl hn

/-- C71, the exceptions are real: after `*copy.Definitions["T"].MaxProperties = 5` the original schema is another one. -/
theorem c71_number_shared : ∃ d x i t, Consists exObjCopy 3 (.node d) ∧ exObjCopy.nodes[d]? = some x ∧ x.maxProperties = some i ∧
    IsSchema (exObjCopy.setNat i 5) 0 t ∧ t ≠ exObjSchema := by
  refine ⟨2, _, 0, { exObjSchema with definitions := [("T", some { core := { type := "object", maxProperties := some 5 }, properties := some [] })] },
    .entry (i := 2) (k := "T") (.field .self rfl (.map (by decide))) rfl (by decide), rfl, rfl, ?_, fun e => ?_⟩
  · have h1 : IsSchemaTo (exObjCopy.setNat 0 5) 1 1 { core := { type := "object", maxProperties := some 5 }, properties := some [] } := by
      refine ⟨_, rfl, ?_⟩
      constructor
      constructor
      all_goals simp [Deref, Contains, IsList, IsRef, IsMap, flatPart, IsEntries]
      all_goals rfl
    refine ⟨2, _, rfl, ?_⟩
    constructor
    constructor
    all_goals simp [Deref, Contains, IsList, IsRef, IsMap, flatPart, exObjSchema, IsEntries]
    exact ⟨_, rfl, .cons ⟨rfl, h1⟩ .nil⟩
  · simp [exObjSchema] at e

/-- After `copy.Definitions["T"].Properties.Set("p", &JSONSchema{Type: "string"})` too: the map has no entries in the original, so it is shared. -/
theorem c71_empty_map_shared : ∃ d x i t, Consists exObjCopy 3 (.node d) ∧ exObjCopy.nodes[d]? = some x ∧ x.properties = some i ∧
    IsSchema ((Mem.newNode { flat := { type := "string" } } exObjCopy).2.setEntry i "p" (some 4)) 0 t ∧ t ≠ exObjSchema := by
  refine ⟨2, _, 1, { exObjSchema with definitions := [("T", some { core := { type := "object", maxProperties := some 3 }, properties := some [("p", some { core := { type := "string" } })] })] },
    .entry (i := 2) (k := "T") (.field .self rfl (.map (by decide))) rfl (by decide), rfl, rfl, ?_, fun e => ?_⟩
  · have h0 : IsSchemaTo ((Mem.newNode { flat := { type := "string" } } exObjCopy).2.setEntry 1 "p" (some 4)) 1 4 { core := { type := "string" } } := by
      refine ⟨_, rfl, ?_⟩
      constructor
      constructor
      all_goals simp [Deref, Contains, IsList, IsRef, IsMap, flatPart, IsEntries]
    have h1 : IsSchemaTo ((Mem.newNode { flat := { type := "string" } } exObjCopy).2.setEntry 1 "p" (some 4)) 2 1
        { core := { type := "object", maxProperties := some 3 }, properties := some [("p", some { core := { type := "string" } })] } := by
      refine ⟨_, rfl, ?_⟩
      constructor
      constructor
      all_goals simp [Deref, Contains, IsList, IsRef, IsMap, flatPart, IsEntries]
      · rfl
      · exact ⟨_, rfl, .cons ⟨rfl, h0⟩ .nil⟩
    refine ⟨3, _, rfl, ?_⟩
    constructor
    constructor
    all_goals simp [Deref, Contains, IsList, IsRef, IsMap, flatPart, exObjSchema, IsEntries]
    exact ⟨_, rfl, .cons ⟨rfl, h1⟩ .nil⟩
  · simp [exObjSchema] at e

/-- Without the hypothesis that the schema is finite, copying need not end: a schema that is its own `items`. -/
theorem c71_cycle_diverges (n : Nat) : memCopy n 0 { nodes := [{ items := some 0 }] } = (.diverge, { nodes := [{ items := some 0 }] }) := by
  induction n with
  | zero => rfl
  | succ n ih => simp [memCopy, memCopyNode, memCopyStrs, memCopyVals, memCopyPtrs, memCopyRef, held, M.bind, M.ret, ih]

end GoRaml.Props
