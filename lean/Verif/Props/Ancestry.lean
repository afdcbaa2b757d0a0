import Verif.Lemmas.Ready
import Verif.Props.Stops
import Verif.Props.UnwrapAll
import Verif.Spec.Ancestry
import Verif.Spec.Commons

/-!
# No parsed type is built on itself (C80)
-/

namespace GoRaml.Props

open GoRaml GoRaml.Spec

section
variable (E : Env) (s : St) (h : Load.Ready E s)

include h

theorem derives_edge {a x : Addr} (hd : DerivesFrom s a x) : Lines.Edge s a x := by
  have hl := h.held.loaded
  cases hd with
  | «alias» hb e => exact ⟨_, hb, Lines.typed_set (hl.typed hb), .inl e⟩
  | include_ hb e1 e2 e3 => exact ⟨_, hb, Lines.typed_set (hl.typed hb), .inr (.inl ⟨_, _, e1, e2, e3⟩)⟩
  | parent hb e => exact ⟨_, hb, Lines.typed_set (hl.typed hb), .inr (.inr e)⟩

/-- Going from a type to one it is built on comes to an end, whichever way one goes. -/
theorem ready_lineage_ends (g : Nat → Addr) : ∃ i, ¬ DerivesFrom s (g i) (g (i + 1)) := by
  have hf := h.fine
  have key : ∀ a, ∀ i, g i = a → ∃ i, ¬ DerivesFrom s (g i) (g (i + 1)) := fun a => by
    induction hf.acc a with
    | intro a _ ih =>
      intro i hi
      by_cases hd : DerivesFrom s (g i) (g (i + 1))
      · exact ih (g (i + 1)) (hi ▸ derives_edge E s h hd) (i + 1) rfl
      · exact ⟨i, hd⟩
  exact key (g 0) 0 rfl

/-- No type is its own ancestor. -/
theorem ready_no_own_ancestor (a : Addr) : ¬ AncestorOf s a a := by
  have hf := h.fine
  have key : Acc (fun x a => DerivesFrom s a x) a := by
    induction hf.acc a with
    | intro a _ ih => exact ⟨a, fun x hx => ih x (derives_edge E s h hx)⟩
  intro hc
  have hc' : Relation.TransGen (fun x a => DerivesFrom s a x) a a := Relation.transGen_swap.2 hc
  have key' := key.transGen
  clear hc key
  induction key' with
  | intro a _ ih => exact ih a hc' hc'

/-- The types a type is built on are resolved types of the model. -/
theorem ready_ancestors_resolved {a x : Addr} (hx : AncestorOf s x a) : Concrete s x := by
  have hf := h.fine
  cases hx with
  | single hd => exact hf.typed _ _ (derives_edge E s h hd)
  | tail _ hd => exact hf.typed _ _ (derives_edge E s h hd)

/-- Every type has finitely many first parents. -/
theorem ready_rooted : Rooted s := by
  have hf := h.fine
  intro a
  induction hf.acc a with
  | intro a _ ih =>
    intro b hb
    cases hs : s.slice b.inherits with
    | nil => exact ⟨_, .root _ hs⟩
    | cons p ps =>
      have he : Lines.Edge s a p := derives_edge E s h (.parent hb (by rw [hs]; simp))
      obtain ⟨pb, hpb, _⟩ := hf.typed a p he
      obtain ⟨l, hl⟩ := ih p he pb hpb
      exact ⟨_, .parent _ p ps pb l hs hpb hl⟩

end

section
variable (E : Env) (n m : Nat) (path : String) (f : FragRef) (s : St) (h : parseFromPath E n m path {} = (.ok f, s))

include h

/-- C80: in a parsed model, going from a type to one it is built on comes to an end, whichever way one goes. -/
theorem c80_lineage_ends (g : Nat → Addr) : ∃ i, ¬ DerivesFrom s (g i) (g (i + 1)) := ready_lineage_ends E s (Load.ready_parsed h) g

/-- C80: no type of a parsed model is its own ancestor. -/
theorem c80_no_own_ancestor (a : Addr) : ¬ AncestorOf s a a := ready_no_own_ancestor E s (Load.ready_parsed h) a

/-- C80: the types a type is built on are resolved types of the model. -/
theorem c80_ancestors_resolved {a x : Addr} (hx : AncestorOf s x a) : Concrete s x := ready_ancestors_resolved E s (Load.ready_parsed h) hx

/-- C80: every type has finitely many first parents. -/
theorem c80_rooted : Rooted s := ready_rooted E s (Load.ready_parsed h)

end

/-! ## A library -/

theorem derives_alias {s : St} {a x : Addr} (h : (s.base a).map (·.alias) = some (some x)) : DerivesFrom s a x := by
  obtain ⟨b, h1, h2⟩ := Option.map_eq_some_iff.1 h
  exact .alias h1 h2

theorem derives_parent {s : St} {a x : Addr} {l : List Addr} (h : ((s.base a).map fun b => s.slice b.inherits) = some l) (hx : x ∈ l) : DerivesFrom s a x := by
  obtain ⟨b, h1, h2⟩ := Option.map_eq_some_iff.1 h
  exact .parent h1 (h2 ▸ hx)

/-- The hypothesis is met, and there is something to say: the library of C79 is parsed; `Again` (11) is another name of `Deep` (5), which has the parents `Leaf` (4) and `Other` (8), by
references to them; `Leaf` has the parent `Node` (0); and parts of these types refer back to them. -/
example : exResult (parseFromPath (exLibEnv exDynasty) 20 20 "a.raml" {}) = some (.library 0) ∧ AncestorOf (exLibModel exDynasty) 0 11 ∧ AncestorOf (exLibModel exDynasty) 8 11 ∧
    ¬ AncestorOf (exLibModel exDynasty) 11 11 ∧ AncestorOf (exLibModel exDynasty) 11 10 := by
  have h : exResult (parseFromPath (exLibEnv exDynasty) 20 20 "a.raml" {}) = some (.library 0) := by decide +kernel
  have h11 : DerivesFrom (exLibModel exDynasty) 11 5 := derives_alias (by decide +kernel)
  have h5 : ((exLibModel exDynasty).base 5).map (fun b => (exLibModel exDynasty).slice b.inherits) = some [6, 7] := by decide +kernel
  have h6 : DerivesFrom (exLibModel exDynasty) 6 4 := derives_alias (by decide +kernel)
  have h7 : DerivesFrom (exLibModel exDynasty) 7 8 := derives_alias (by decide +kernel)
  have h4 : DerivesFrom (exLibModel exDynasty) 4 0 := derives_parent (l := [0]) (by decide +kernel) (by simp)
  refine ⟨h, ?_, ?_, c80_no_own_ancestor _ _ _ _ _ _ (exParses h) 11, ?_⟩
  · exact ((Relation.TransGen.single h11).tail (derives_parent h5 (by simp))).tail h6 |>.tail h4
  · exact ((Relation.TransGen.single h11).tail (derives_parent h5 (by simp))).tail h7
  · exact .single (derives_alias (by decide +kernel))

end GoRaml.Props
