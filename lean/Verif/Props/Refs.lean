import Verif.Lemmas.LoadEnds
import Verif.Props.Load

/-!
# References between types (C34)
-/

namespace GoRaml

open Spec

theorem reached_wellFormed {E : Env} {s : St} (h : Reached E s) : Load.W E Load.noPerm s := by
  induction h with
  | @decoded n text path f s hfile hd =>
    have := Load.decodeEntry_keeps (K := Load.anyCtl) trivial (Load.anyRegs E) n hfile trivial
    exact (this.ok hd).1
  | @resolved n a l s s' _ hu hr ih =>
    have := Load.resolveShape_run (K := Load.anyCtl) trivial (Load.anyRegs E) n Load.noPerm s a ih trivial (fun _ hx => hx.elim) (ih.unresolved a (by rw [hu]; simp))
    obtain ⟨hw, _, g, hc, _⟩ := this.ok hr
    obtain ⟨t, ht⟩ := g.unresolved
    exact hw.pop (a := a) (l := l ++ t) (by rw [← ht, hu]; rfl) hc

/-- C34, where it holds: if the types that types need first can be ranked, resolving any type ends.  Arrays, unions and optional types need nothing first, so a cycle
through one of them is no obstacle.  The number of nested calls that suffices is the same for all types. -/
theorem c34_resolution_ends (E : Env) (hfin : FinitelyManyFiles E) (hnc : NoIncludeCycle E) (s : St) (hs : Reached E s) (hin : InLoadedFile s) (rank : Addr → Nat)
    (hrank : ∀ a x, Needs s a x → rank x < rank a) : ∃ N, ∀ n, N ≤ n → ∀ a, IsBase s a → (resolveShape E n a s).1 ≠ .diverge :=
  Load.resolveShape_ends hfin hnc (reached_wellFormed hs) hin rank hrank

theorem getBase_some {s : St} {a : Addr} {b : Base} (h : s.base a = some b) : Heap.getBase a s = (.ok b, s) := by simp [Heap.getBase, h]

theorem lift_some {α : Type} (s : St) (x : α) : M.lift (.ok x) s = (.ok x, s) := rfl

/-- What an unresolved type does for its head. -/
theorem visitor_head {E : Env} {c : Calls} {rec : Addr → M St Unit} {tree : Rdt} {n : String} {m : Option String} (h : headRef tree = some (n, m)) :
    (visitor E c rec tree).at_ = visitReference E c rec (refText n m) := by
  induction tree with
  | ref x y => simp only [headRef, Option.some.injEq, Prod.mk.injEq] at h; rw [← h.1, ← h.2]; rfl
  | group e ih => exact ih h
  | _ => simp [headRef] at h

theorem resolveStep_head {E : Env} {c : Calls} {rec : Addr → M St Unit} {s : St} {a : Addr} {b : Base} {facets : Option (List YNode)} {tree : Rdt} {n : String} {m : Option String}
    (hb : s.base a = some b) (hf : b.shape = some (.unknown facets)) (hl : b.link = none) (hc : b.type ≠ "composite") (hp : parseTypeExpression b.type = some tree)
    (hh : headRef tree = some (n, m)) : resolveStep E c rec a s = visitReference E c rec (refText n m) a facets s := by
  unfold resolveStep
  rw [bind_step (getBase_some hb)]
  simp only [hf, hl, if_neg hc, hp, visitor_head hh]

/-- C34: types that are references to each other in a cycle, without an array, a union or an optional type between them, make resolution recurse for ever. -/
theorem c34_cycle_diverges (E : Env) (s : St) (S : Addr → Prop) (hS : ∀ a, S a → ∃ x, S x ∧ RefersTo s a x) (n : Nat) (a : Addr) (ha : S a) :
    (resolveShape E n a s).1 = .diverge := by
  induction n generalizing a with
  | zero => rfl
  | succ k ih =>
    obtain ⟨x, hx, b, facets, tree, n, m, bx, hb, hf, hl, hc, hp, hh, hr, hbx, hid⟩ := hS a ha
    show (resolveStep E (calls E k) (resolveShape E k) a s).1 = .diverge
    rw [resolveStep_head hb hf hl hc hp hh]
    have hd := ih x hx
    cases h : resolveShape E k x s with
    | mk o t =>
      rw [h] at hd
      simp only at hd
      subst hd
      simp [visitReference, M.bind, M.lift, Heap.getBase, hb, hr, hbx, hid, h]

/-- C34: a type that is a reference to itself is an error. -/
theorem c34_self_reference (E : Env) (s : St) (a : Addr) (b : Base) (facets : Option (List YNode)) (tree : Rdt) (n : String) (m : Option String) (hb : s.base a = some b)
    (hf : b.shape = some (.unknown facets)) (hl : b.link = none) (hc : b.type ≠ "composite") (hp : parseTypeExpression b.type = some tree) (hh : headRef tree = some (n, m))
    (hr : getReferenced s Lib.types (refText n m) b.location = .ok a) (k : Nat) : resolveShape E (k + 1) a s = (.err "self recursion", s) := by
  show resolveStep E (calls E k) (resolveShape E k) a s = _
  rw [resolveStep_head hb hf hl hc hp hh]
  simp [visitReference, M.bind, M.lift, M.err, Heap.getBase, hb, hr]

/-! ## Examples -/

/-- What a type needs, computed. -/
def exNeeds (s : St) (a : Addr) : List Addr :=
  match s.base a with
  | none => []
  | some b =>
    match b.link with
    | some d => ((s.dts[d]?).bind (·.shape)).toList
    | none =>
      if b.type = "composite" then s.slice b.inherits
      else
        match (parseTypeExpression b.type).bind headRef with
        | none => []
        | some (n, m) =>
          match getReferenced s Lib.types (refText n m) b.location with
          | .ok x => if (s.base x).map (·.id) = some b.id then [] else [x]
          | _ => []

theorem needs_exNeeds {s : St} {a x : Addr} (h : Needs s a x) (hx : ∃ bx, s.base x = some bx) : x ∈ exNeeds s a := by
  obtain ⟨b, facets, hb, hf, ⟨d, hd, h1⟩ | ⟨h1, h2, h3⟩ | ⟨h1, h2, tree, n, m, h3, h4, h5, h6⟩⟩ := h
  · simp [exNeeds, hb, hd, h1]
  · simp [exNeeds, hb, h1, h2, h3]
  · obtain ⟨bx, hbx⟩ := hx
    simp [exNeeds, hb, h1, h2, h3, h4, h5, hbx, h6 bx hbx]

/-- Types in cycles: `A` is an array of `B`, `B` refers to `A`; `C` has the parents `B` and `D`; `D` and `E` refer to each other through a union. -/
def exRefs : List (String × String × YNode) := [
  ("r.raml", "#%RAML 1.0 Library\nr", exDoc [
    ("types", exMap [
      ("A", .str "B[]"), ("B", .str "(A)"), ("C", exMap [("type", .mk .sequence "!!seq" "" [.str "B", .str "D"]), ("description", .str "x")]),
      ("D", .str "E"), ("E", .str "D | nil")])])]

/-- `A` and `B` refer to each other; `C` refers to `A`, and `D` to itself. -/
def exLoop : List (String × String × YNode) := [
  ("l.raml", "#%RAML 1.0 Library\nl", exDoc [
    ("types", exMap [("A", .str "(B)"), ("B", exMap [("type", .str "A"), ("description", .str "x")]), ("C", .str "A"), ("D", .str "D")])])]

/-- After decoding, before resolution. -/
def exDecoded (files : List (String × String × YNode)) (path : String) : St :=
  (decodeEntry (exFilesEnv files) 20 (((exFilesEnv files).file path).getD "") path {}).2

theorem exDecoded_eq {files : List (String × String × YNode)} {path text : String} {f : FragRef} (hfile : (exFilesEnv files).file path = some text)
    (h : exResult (decodeEntry (exFilesEnv files) 20 text path {}) = some f) : decodeEntry (exFilesEnv files) 20 text path {} = (.ok f, exDecoded files path) := by
  unfold exDecoded
  rw [hfile]
  simp only [Option.getD_some]
  unfold exResult at h
  cases hd : decodeEntry (exFilesEnv files) 20 text path {} with
  | mk o t =>
    rw [hd] at h
    cases o <;> simp at h
    subst h; rfl

theorem exDecoded_reached {files : List (String × String × YNode)} {path text : String} {f : FragRef} (hfile : (exFilesEnv files).file path = some text)
    (h : exResult (decodeEntry (exFilesEnv files) 20 text path {}) = some f) : Reached (exFilesEnv files) (exDecoded files path) :=
  .decoded hfile (exDecoded_eq hfile h)

/-- Ranks for `exRefs`. -/
def exRefsRank (a : Addr) : Nat := [0, 1, 3, 2, 2, 1, 0].getD a 0

theorem exRefs_reached : Reached (exFilesEnv exRefs) (exDecoded exRefs "r.raml") :=
  exDecoded_reached (text := "#%RAML 1.0 Library\nr") (f := .library 0) (by decide +kernel) (by decide +kernel)

theorem exRefs_rank (a x : Addr) (h : Needs (exDecoded exRefs "r.raml") a x) : exRefsRank x < exRefsRank a := by
  have hw := reached_wellFormed exRefs_reached
  have hx := Load.isBase_base (Load.needs_isBase hw h)
  have hm := needs_exNeeds h hx
  have ha : a < (exDecoded exRefs "r.raml").bases.length := by
    obtain ⟨b, _, hb, _⟩ := h
    exact Load.base_isBase hb
  have hall : ∀ a, a < (exDecoded exRefs "r.raml").bases.length → ∀ x ∈ exNeeds (exDecoded exRefs "r.raml") a, exRefsRank x < exRefsRank a := by decide +kernel
  exact hall a ha x hm

theorem exRefs_inLoaded : InLoadedFile (exDecoded exRefs "r.raml") := by
  intro a b f hb _
  have hall : ((exDecoded exRefs "r.raml").bases.all fun b => (getFragment (exDecoded exRefs "r.raml") b.location).isSome) = true := by decide +kernel
  exact Option.isSome_iff_exists.1 (List.all_eq_true.1 hall b (List.mem_of_getElem? hb))

/-- The hypotheses of `c34_resolution_ends` are met by types in cycles through an array and through a union, and all of them are resolved. -/
example : (∃ N, ∀ n, N ≤ n → ∀ a, IsBase (exDecoded exRefs "r.raml") a → (resolveShape (exFilesEnv exRefs) n a (exDecoded exRefs "r.raml")).1 ≠ .diverge) ∧
    (parseFromPath (exFilesEnv exRefs) 20 20 "r.raml" {}).2.bases.map (fun b => (b.name, b.type)) =
      [("A", "array"), ("B", "array"), ("C", "array"), ("C", "array"), ("C", "union"), ("D", "union"), ("E", "union"), ("", "array"), ("", "union"), ("", "nil")] :=
  ⟨c34_resolution_ends _ (exFiles_finite _)
    (noIncludeCycle_of_noWayBack (noWayBack_of_rank (fun _ => 0)
      (fun p q h => by simpa using exFiles_includes (fun _ _ => false) (by decide +kernel) p q h)
      (fun p q h => Nat.le_refl _))) _ exRefs_reached exRefs_inLoaded exRefsRank exRefs_rank, by decide +kernel⟩

/-- `RefersTo`, computed. -/
def exRefersTo (s : St) (a x : Addr) : Bool :=
  match s.base a, s.base x with
  | some b, some bx =>
    (match b.shape with | some (.unknown _) => true | _ => false) && b.link.isNone && decide (b.type ≠ "composite") && decide (bx.id ≠ b.id) &&
    (match (parseTypeExpression b.type).bind headRef with
     | none => false
     | some (n, m) => match getReferenced s Lib.types (refText n m) b.location with | .ok y => decide (y = x) | _ => false)
  | _, _ => false

theorem exRefersTo_iff {s : St} {a x : Addr} (h : exRefersTo s a x = true) : RefersTo s a x := by
  unfold exRefersTo at h
  cases hb : s.base a with
  | none => simp [hb] at h
  | some b =>
    cases hbx : s.base x with
    | none => simp [hb, hbx] at h
    | some bx =>
      simp only [hb, hbx, Bool.and_eq_true, decide_eq_true_eq] at h
      obtain ⟨⟨⟨⟨h1, h2⟩, h3⟩, h4⟩, h5⟩ := h
      split at h1
      · rename_i f hf
        split at h5
        · cases h5
        · rename_i n m hp
          obtain ⟨tree, hp1, hp2⟩ := Option.bind_eq_some_iff.1 hp
          split at h5
          · rename_i y hy
            simp only [decide_eq_true_eq] at h5
            subst h5
            exact ⟨b, f, tree, n, m, bx, hb, hf, by simpa using h2, h3, hp1, hp2, hy, hbx, h4⟩
          · cases h5
      · cases h1

/-- The hypotheses of `c34_cycle_diverges` are met: with `A: (B)` and `B: {type: A}`, neither can be resolved, nor can `C: A`. -/
example (n : Nat) (a : Addr) (ha : a < 3) : (resolveShape (exFilesEnv exLoop) n a (exDecoded exLoop "l.raml")).1 = .diverge := by
  refine c34_cycle_diverges _ _ (fun a => a < 3) (fun a ha => ?_) n a ha
  have hall : ∀ a < 3, exRefersTo (exDecoded exLoop "l.raml") a (if a = 0 then 1 else 0) = true := by decide +kernel
  exact ⟨if a = 0 then 1 else 0, by split <;> decide, exRefersTo_iff (hall a ha)⟩

/-- Nor can the file be loaded, whatever the bounds. -/
example (n m : Nat) : (resolveShapes (exFilesEnv exLoop) n m (exDecoded exLoop "l.raml")).1 = .diverge := by
  have hu : (exDecoded exLoop "l.raml").unresolved = [0, 1, 2, 3] := by decide +kernel
  have hd : (resolveShape (exFilesEnv exLoop) n 0 (exDecoded exLoop "l.raml")).1 = .diverge := by
    refine c34_cycle_diverges _ _ (fun a => a < 3) (fun a ha => ?_) n 0 (by decide)
    have hall : ∀ a < 3, exRefersTo (exDecoded exLoop "l.raml") a (if a = 0 then 1 else 0) = true := by decide +kernel
    exact ⟨if a = 0 then 1 else 0, by split <;> decide, exRefersTo_iff (hall a ha)⟩
  unfold resolveShapes resolveLoop
  rw [hu]
  cases m with
  | zero => rfl
  | succ m =>
    refine bind_diverges ?_
    unfold M.attempt
    cases h : resolveShape (exFilesEnv exLoop) n 0 (exDecoded exLoop "l.raml") with
    | mk o t => rw [h] at hd; simp only at hd; subst hd; rfl

/-- `D: D` is an error. -/
example : (match (resolveShape (exFilesEnv exLoop) 5 3 (exDecoded exLoop "l.raml")).1 with | .err e => e | _ => "") = "self recursion" := by decide +kernel

end GoRaml
