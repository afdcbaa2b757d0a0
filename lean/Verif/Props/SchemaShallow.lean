import Verif.Lemmas.SchemaShallow
import Verif.Props.SchemaMem

/-!
# Shallow copies of schemas share the schemas inside (C83)
-/

namespace GoRaml.Props

open GoRaml GoRaml.Spec GoRaml.SMem

/-- C83: a shallow copy of a schema succeeds, is the same schema, and changes no object that existed.  Its own objects are new.  Everything else it consists of belongs to the
original, and everything else the original consists of belongs to the copy. -/
theorem c83_copy {h : Mem} {a : Nat} {s : JS} (hs : IsSchema h a s) : ∃ c h', memShallow a h = (.ok c, h') ∧ IsSchema h' c s ∧ (∀ q, IsCell h q → SameCell h h' q) ∧
    (∀ q, OwnCell h' c q → ¬ IsCell h q) ∧ (∀ q, Consists h' c q → OwnCell h' c q ∨ Consists h a q) ∧ ∀ q, Consists h a q → OwnCell h a q ∨ Consists h' c q := by
  obtain ⟨n, hn⟩ := hs
  obtain ⟨x, x', h', hx, e, hp, hl, t, l1, l2, l3⟩ := shallow_run hn
  have ha' : h'.nodes[a]? = some x := prefix_get hp.nodes hx
  have hc' : h'.nodes[h.nodes.length]? = some x' := by rw [hl]; exact append_last ..
  have hcell := fun q hq => (c71_depends (h' := h) ⟨n, hn⟩).1 q hq
  have same : ∀ q, Consists h a q → SameCell h h' q := fun q hq => hp.same (hcell q hq)
  refine ⟨_, h', e, ⟨n, t.isSchemaTo ha' hc' (isSchemaTo_pre hp hn)⟩, fun q hq => hp.same hq, fun q hq hi => ?_, fun q hq => ?_, fun q hq => ?_⟩
  · cases hq with
    | self => exact Nat.lt_irrefl _ hi
    | annotations hy hj => cases hc'.symm.trans hy; exact absurd hi (Nat.not_lt.2 (l1 _ hj))
    | facetDefinitions hy hj => cases hc'.symm.trans hy; exact absurd hi (Nat.not_lt.2 (l2 _ hj))
    | facetData hy hj => cases hc'.symm.trans hy; exact absurd hi (Nat.not_lt.2 (l3 _ hj))
  · rcases t.consists ha' hc' hq with r | r
    · exact .inl r
    · refine .inr ?_
      clear hq
      induction r with
      | self => exact .self
      | field _ hx hp ih => exact .field ih ((same _ ih).symm.trans hx) hp
      | member _ hl hb ih => exact .member ih ((same _ ih).symm.trans hl) hb
      | entry _ hl hb ih => exact .entry ih ((same _ ih).symm.trans hl) hb
  · have r : Consists h' a q := by
      induction hq with
      | self => exact .self
      | field h1 hx hp ih => exact .field ih ((same _ h1).trans hx) hp
      | member h1 hl hb ih => exact .member ih ((same _ h1).trans hl) hb
      | entry h1 hl hb ih => exact .entry ih ((same _ h1).trans hl) hb
    rcases t.symm.consists hc' ha' r with r | r
    · left
      cases r with
      | self => exact .self
      | annotations hy hj => cases ha'.symm.trans hy; exact .annotations hx hj
      | facetDefinitions hy hj => cases ha'.symm.trans hy; exact .facetDefinitions hx hj
      | facetData hy hj => cases ha'.symm.trans hy; exact .facetData hx hj
    · exact .inr r

/-- C83: later changes to the copy's own objects leave the original as it is: to its fields, to its annotations, facet data and list of facet definitions. -/
theorem c83_edit_copy {h h' h'' : Mem} {a c : Nat} {s : JS} (hs : IsSchema h a s) (hc : memShallow a h = (.ok c, h'))
    (he : ∀ q, IsCell h' q → ¬ SameCell h' h'' q → OwnCell h' c q) : IsSchema h'' a s := by
  obtain ⟨c', t', e, _, e2, e3, _, _⟩ := c83_copy hs
  cases hc.symm.trans e
  have hs' : IsSchema h' a s := (c71_depends hs).2 fun q hq => e2 q ((c71_depends (h' := h) hs).1 q hq)
  refine (c71_depends hs').2 fun q hq => Classical.byContradiction fun hn => ?_
  obtain ⟨n, hn'⟩ := hs
  obtain ⟨x, x', t, hx, r, hp, hl, tw, _⟩ := shallow_run hn'
  cases hc.symm.trans r
  have same : ∀ q, Consists h a q → SameCell h h' q := fun q hq => hp.same ((c71_depends (h' := h) ⟨n, hn'⟩).1 q hq)
  have r : Consists h a q := by
    clear hn
    induction hq with
    | self => exact .self
    | field _ hx hp ih => exact .field ih ((same _ ih).symm.trans hx) hp
    | member _ hl hb ih => exact .member ih ((same _ ih).symm.trans hl) hb
    | entry _ hl hb ih => exact .entry ih ((same _ ih).symm.trans hl) hb
  exact e3 q (he q ((c71_depends (h' := h) hs').1 q hq) hn) ((c71_depends (h' := h) ⟨n, hn'⟩).1 q r)

/-- C83: later changes to the fields of the original leave the copy as it is. -/
theorem c83_edit_original {h h' h'' : Mem} {a c : Nat} {s : JS} (hs : IsSchema h a s) (hc : memShallow a h = (.ok c, h'))
    (he : ∀ q, IsCell h' q → ¬ SameCell h' h'' q → q = .node a) : IsSchema h'' c s := by
  have keeps : ∀ q, q ≠ .node a → Keeps h' h'' q := fun q hq => by
    by_cases hi : IsCell h' q
    · exact .of_same (Classical.byContradiction fun hn => hq (he q hi hn))
    · cases q <;> exact fun v hv => absurd (lt_of_get hv) hi
  have hrest : Rest h' h'' := fun q hq => keeps q (hq a)
  have hnode : ∀ b, b ≠ a → Keeps h' h'' (.node b) := fun b hb => keeps _ fun e => hb (by cases e; rfl)
  classical
  obtain ⟨n0, hn0⟩ := hs
  obtain ⟨x, x', t, hx, r, hp, hl, tw, _⟩ := shallow_run hn0
  cases hc.symm.trans r
  have ha' : h'.nodes[a]? = some x := prefix_get hp.nodes hx
  have hc' : h'.nodes[h.nodes.length]? = some x' := by rw [hl]; exact append_last ..
  have hex : ∃ n, ∃ s, IsSchemaTo h' n a s := ⟨n0, s, isSchemaTo_pre hp hn0⟩
  obtain ⟨s', hs'⟩ := Nat.find_spec hex
  have hmin := fun m (hm : m < Nat.find hex) => Nat.find_min hex hm
  cases isSchema_uniq ⟨_, hs'⟩ ⟨n0, isSchemaTo_pre hp hn0⟩
  revert hs' hmin
  cases Nat.find hex with
  | zero => exact fun _ hs' => hs'.elim
  | succ n =>
    intro hmin hs'
    obtain ⟨y, hy, hn⟩ := tw.isSchemaTo ha' hc' hs'
    have hne : h.nodes.length ≠ a := Nat.ne_of_gt (lt_of_get hx)
    exact ⟨n + 1, y, hnode _ hne y hy, nodeRest hrest hn fun b t => isSchemaTo_below hrest hnode (fun m hm u hu => hmin m (by omega) ⟨u, hu⟩) (Nat.le_refl n) b t⟩

/-- C83: the copy is not independent: whatever is changed later, other than the own objects of the two, the copy and the original are still the same schema. -/
theorem c83_follows {h h' h'' : Mem} {a c : Nat} {s : JS} (hs : IsSchema h a s) (hc : memShallow a h = (.ok c, h'))
    (he : ∀ q, OwnCell h' a q ∨ OwnCell h' c q → SameCell h' h'' q) (t : JS) : IsSchema h'' a t ↔ IsSchema h'' c t := by
  obtain ⟨n, hn⟩ := hs
  obtain ⟨x, x', t, hx, r, hp, hl, tw, _⟩ := shallow_run hn
  cases hc.symm.trans r
  have ha' : h'.nodes[a]? = some x := prefix_get hp.nodes hx
  have hc' : h'.nodes[h.nodes.length]? = some x' := by rw [hl]; exact append_last ..
  refine Twin.isSchema (x := x) (x' := x') ⟨tw.rest, ?_, ?_, ?_⟩ ((he _ (.inl .self)).trans ha') ((he _ (.inr .self)).trans hc')
  · rcases tw.annotations with r | ⟨i, j, v, h1, h2, h3, h4⟩
    · exact .inl r
    · exact .inr ⟨i, j, v, h1, h2, (he (.vmap i) (.inl (.annotations ha' h1))).trans h3, (he (.vmap j) (.inr (.annotations hc' h2))).trans h4⟩
  · rcases tw.facetDefinitions with r | ⟨i, j, v, h1, h2, h3, h4⟩
    · exact .inl r
    · exact .inr ⟨i, j, v, h1, h2, (he (.map i) (.inl (.facetDefinitions ha' h1))).trans h3, (he (.map j) (.inr (.facetDefinitions hc' h2))).trans h4⟩
  · rcases tw.facetData with r | ⟨i, j, v, h1, h2, h3, h4⟩
    · exact .inl r
    · exact .inr ⟨i, j, v, h1, h2, (he (.vmap i) (.inl (.facetData ha' h1))).trans h3, (he (.vmap j) (.inr (.facetData hc' h2))).trans h4⟩

/-! The example of C71 again. -/

/-- Its shallow copy. -/
def exObjShallow : Mem := (memShallow 0 exObjMem).2

theorem exObj_shallow : memShallow 0 exObjMem = (.ok 2, exObjShallow) := rfl

/-- The edits are not vacuous: after `copy.Ref = ""` the original is what it was. -/
example : IsSchema { exObjShallow with nodes := exObjShallow.nodes.set 2 {} } 0 exObjSchema := by
  refine c83_edit_copy exObj_isSchema exObj_shallow fun q hq hn => ?_
  cases q with
  | node i =>
    by_cases hi : i = 2
    · exact hi ▸ .self
    · exact absurd (List.getElem?_set_ne (Ne.symm hi)) hn
  | _ => exact absurd rfl hn

/-- And after `original.Ref = ""` the copy is what it was. -/
example : IsSchema { exObjShallow with nodes := exObjShallow.nodes.set 0 {} } 2 exObjSchema := by
  refine c83_edit_original exObj_isSchema exObj_shallow fun q hq hn => ?_
  cases q with
  | node i =>
    by_cases hi : i = 0
    · exact hi ▸ rfl
    · exact absurd (List.getElem?_set_ne (Ne.symm hi)) hn
  | _ => exact absurd rfl hn

/-- C83, what is shared shows: after `*copy.Definitions["T"] = JSONSchema{}` the original schema is another one. -/
theorem c83_definition_shared : ∃ d t, Consists exObjShallow 2 (.node d) ∧ IsSchema { exObjShallow with nodes := exObjShallow.nodes.set d {} } 2 t ∧
    IsSchema { exObjShallow with nodes := exObjShallow.nodes.set d {} } 0 t ∧ t ≠ exObjSchema := by
  have h0 : IsSchema { exObjShallow with nodes := exObjShallow.nodes.set 1 {} } 0 { exObjSchema with definitions := [("T", some {})] } := by
    have h1 : IsSchemaTo { exObjShallow with nodes := exObjShallow.nodes.set 1 {} } 1 1 {} := by
      refine ⟨_, rfl, ?_⟩
      constructor
      constructor
      all_goals simp [Deref, Contains, IsList, IsRef, IsMap, flatPart, IsEntries]
    refine ⟨2, _, rfl, ?_⟩
    constructor
    constructor
    all_goals simp [Deref, Contains, IsList, IsRef, IsMap, flatPart, exObjSchema, IsEntries]
    exact ⟨_, rfl, .cons ⟨rfl, h1⟩ .nil⟩
  refine ⟨1, _, .entry (i := 0) (k := "T") (.field .self rfl (.map (by decide))) rfl (by decide), ?_, h0, fun e => by simp [exObjSchema] at e⟩
  refine (c83_follows exObj_isSchema exObj_shallow (fun q hq => ?_) _).1 h0
  rcases hq with hq | hq
  · cases hq <;> rfl
  · cases hq <;> rfl

end GoRaml.Props
