import Verif.Lemmas.MeanEnd
import Verif.Lemmas.MeanCheck
import Verif.Props.Lineage
import Verif.Spec.Meaning

/-!
# Unwrapping keeps what the types mean (C69)
-/

namespace GoRaml.Props

open GoRaml GoRaml.Spec

/-- What parsing is known to leave. -/
theorem setup_parsed {E : Env} {n m : Nat} {path : String} {f : FragRef} {s : St} (h : parseFromPath E n m path {} = (.ok f, s)) (hs : Straight s) : Mean.Setup s := by
  have hld := parsed_loaded E n m path f s h
  have hwf := hld.wellFormed
  have hi : Apart.I s := by have := Apart.parsed_own (E := E) (n := n) (m := m) (path := path); rw [h] at this; exact this
  have at_ : ∀ {a q}, s.shapeAt a = some q → ∃ b, s.base a = some b ∧ b.shape = some q := fun {a q} hq => by
    unfold St.shapeAt at hq
    exact Option.bind_eq_some_iff.1 hq
  have shapeOK : ∀ {a q}, s.shapeAt a = some q → ShapeOK s q := fun hq => by
    obtain ⟨b, h1, h2⟩ := at_ hq
    obtain ⟨q', h3, h4⟩ := (hwf _ b h1).shape
    rw [h2] at h3
    cases h3
    exact h4
  refine
    { straight := hs
      shape := fun a b hb => by obtain ⟨q, h1, _⟩ := (hwf a b hb).shape; exact ⟨q, h1⟩
      next := fun a y hy => Load.isBase_base ?_
      fresh := hi.fresh
      share := hi.share
      props := fun x f i hx hf => by obtain ⟨m, h1, _⟩ := (shapeOK hx).1 i hf; exact ⟨m, h1⟩
      pats := fun x f i hx hf => by obtain ⟨m, h1, _⟩ := (shapeOK hx).2 i hf; exact ⟨m, h1⟩
      plain := fun a y hy => ?_
      slices := fun a b i hb hbi => by obtain ⟨m, h1, _⟩ := (hwf a b hb).inherits i hbi; exact ⟨m, h1⟩
      names := hi.names
      patNames := hi.patNames }
  · rcases hy with ⟨q, hq, he⟩ | hy
    · have := shapeOK hq
      cases he with
      | items hf => exact this _ hf
      | @property f p hp =>
        cases hi : f.properties with
        | none => rw [hi] at hp; cases hp
        | some i =>
          obtain ⟨ps, h1, h2⟩ := this.1 i hi
          rw [hi] at hp
          simp only [St.props, h1, Option.getD_some] at hp
          exact h2 p hp
      | @pattern f p hp =>
        cases hi : f.patternProperties with
        | none => rw [hi] at hp; cases hp
        | some i =>
          obtain ⟨ps, h1, h2⟩ := this.2 i hi
          rw [hi] at hp
          simp only [St.patProps, h1, Option.getD_some] at hp
          exact h2 p hp
      | @member l e x hp =>
        cases l with
        | none => cases hp
        | some i =>
          obtain ⟨ps, h1, h2⟩ := this i rfl
          simp only [St.slice, h1, Option.getD_some] at hp
          exact h2 _ hp
    · cases hy with
      | «alias» h1 h2 => exact (hwf _ _ h1).alias _ h2
      | included h1 h2 h3 h4 h5 =>
        obtain ⟨d, x, k1, k2, k3⟩ := (hwf _ _ h1).link _ h3
        rw [h4] at k1
        cases k1
        rw [h5] at k2
        cases k2
        exact k3
      | @parent b h1 h2 h3 h4 =>
        cases hi : b.inherits with
        | none => rw [hi] at h4; cases h4
        | some i =>
          obtain ⟨ps, k1, k2⟩ := (hwf _ _ h1).inherits i hi
          rw [hi] at h4
          simp only [St.slice, k1, Option.getD_some] at h4
          exact k2 y (by rw [h4]; simp)
  · obtain ⟨b, h1, h2⟩ := at_ hy
    obtain ⟨sh, k1, k2, k3⟩ := hld.typed h1
    rw [h2] at k1
    cases k1
    exact Emb.kind_not_recursive k2

/-- C69: in a straight model, a declared type accepts after unwrapping exactly the values that it meant before: those that all the declarations it is built on
accept, where parts of types are types with their own lines, to any depth and through recursion.  All other values are rejected, and the type is still declared. -/
theorem c69_unwrapping_keeps_meaning (E : Env) (n m : Nat) (path : String) (f : FragRef) (s s' : St) (h : parseFromPath E n m path {} = (.ok f, s)) (hs : Straight s)
    (k : Nat) {frags frags' : List FragRef} (hf : frags.Perm (s.fragments.map (·.2))) (hf' : frags'.Perm (s.fragments.map (·.2)))
    (hr : unwrapShapes k frags frags' s = (.ok (), s')) {a : Addr} (ha : DeclaredType s a) :
    DeclaredType s' a ∧ ∀ v, GoValue v → (Accepts E.toExt s' a v ↔ Means E.toExt s a v) ∧ (Rejects E.toExt s' a v ↔ ¬ Means E.toExt s a v) := by
  have hld := parsed_loaded E n m path f s h
  have hw := Whole.loaded_wf (K := anyValues) hld (fun _ _ _ h => fine_any h) (fun _ _ _ => ⟨fun _ _ => trivial, fun _ _ _ _ _ _ => trivial, fun _ _ => trivial⟩)
    (fun _ _ _ _ => trivial)
  exact Mean.unwrapShapes_means (setup_parsed h hs) (parsed_oneEach h) hw (Whole.loaded_there hld (perm_fragments hf)) (Whole.loaded_there hld (perm_fragments hf'))
    (fun e he => hf.mem_iff.2 (List.mem_map_of_mem he)) (Whole.loaded_exts hld) hr ha E.toExt

/-- C69, a consequence: the orders in which the fragments are unwrapped, and the bound on nested calls, do not matter. -/
theorem c69_order_does_not_matter (E : Env) (n m : Nat) (path : String) (f : FragRef) (s s' t' : St) (h : parseFromPath E n m path {} = (.ok f, s)) (hs : Straight s)
    (k l : Nat) {frags frags' others others' : List FragRef} (hf : frags.Perm (s.fragments.map (·.2))) (hf' : frags'.Perm (s.fragments.map (·.2)))
    (ho : others.Perm (s.fragments.map (·.2))) (ho' : others'.Perm (s.fragments.map (·.2))) (hr : unwrapShapes k frags frags' s = (.ok (), s'))
    (hr' : unwrapShapes l others others' s = (.ok (), t')) {a : Addr} (ha : DeclaredType s a) (v : GoVal) (hv : GoValue v) :
    (Accepts E.toExt s' a v ↔ Accepts E.toExt t' a v) ∧ (Rejects E.toExt s' a v ↔ Rejects E.toExt t' a v) := by
  have h1 := (c69_unwrapping_keeps_meaning E n m path f s s' h hs k hf hf' hr ha).2 v hv
  have h2 := (c69_unwrapping_keeps_meaning E n m path f s t' h hs l ho ho' hr' ha).2 v hv
  exact ⟨h1.1.trans h2.1.symm, h1.2.trans h2.2.symm⟩

/-- `Means` unfolds: a type has the values that the declarations of its line accept, if their component types have the values they mean. -/
theorem c69_means_unfolds (E : Ext) (h : St) (a : Addr) (v : GoVal) : Means E h a v ↔ ∃ l, Line h a l ∧ LineOK E h (Means E h) l v := by
  have mono : ∀ {P Q : Addr → GoVal → Prop} {l w}, (∀ a v, P a v → Q a v) → LineOK E h P l w → LineOK E h Q l w := fun {P Q l w} hPQ hl => by
    unfold LineOK at hl ⊢
    split
    · rename_i f hf
      simp only [hf] at hl
      obtain ⟨m, h1, h2, h3, h4, h5⟩ := hl
      refine ⟨m, h1, h2, h3, fun c hc f hf k x p hk hp => hPQ _ _ (h4 c hc f hf k x p hk hp), fun k x hk hq => ⟨(h5 k x hk hq).1, ?_⟩⟩
      rcases (h5 k x hk hq).2 with h6 | ⟨c, hc, f, hf, p, hp, h7, h8⟩
      · exact .inl h6
      · exact .inr ⟨c, hc, f, hf, p, hp, h7, hPQ _ _ h8⟩
    · rename_i u e hf
      simp only [hf] at hl
      obtain ⟨c, h1, h2⟩ := hl
      exact ⟨c, h1, Step.mono hPQ h2⟩
    · rename_i h1 h2
      split at hl
      · exact absurd (by assumption) (h1 _)
      · exact absurd (by assumption) (h2 _ _)
      · exact fun c hc => Step.mono hPQ (hl c hc)
  have closed : ∀ a v, (∃ l, Line h a l ∧ LineOK E h (Means E h) l v) → Means E h a v := fun a v ⟨l, hl, hok⟩ P hP =>
    hP a v l hl (mono (fun _ _ hm => hm P hP) hok)
  exact ⟨fun hm => hm (fun a v => ∃ l, Line h a l ∧ LineOK E h (Means E h) l v) fun a v l hl hok => ⟨l, hl, mono closed hok⟩, closed a v⟩

/-! ## An example -/

/-- Objects, scalars, arrays and unions that are built on each other, across two files, and a recursive type. -/
def exTypes : List (String × String × YNode) := [
  ("a.raml", "#%RAML 1.0 Library\na", exDoc [
    ("uses", exMap [("b", .str "b.raml")]),
    ("types", exMap [
      ("Team", exMap [("type", .str "b.Group"), ("properties", exMap [("boss", .str "Person"), ("tree?", .str "Node"), ("label", exMap [("type", .str "string"), ("minLength", .str "2")])]), ("additionalProperties", .str "false")]),
      ("Person", exMap [("properties", exMap [("name", .str "Short")])]),
      ("Short", exMap [("type", .str "Some"), ("minLength", .str "2")]),
      ("Some", .str "b.Word"),
      ("Node", exMap [("properties", exMap [("word", .str "Short"), ("next?", .str "Node | nil")])]),
      ("Other", .str "Team | Short[]"),
      ("Words", exMap [("type", .str "Other")])])]),
  ("b.raml", "#%RAML 1.0 Library\nb", exDoc [
    ("types", exMap [
      ("Group", exMap [("properties", exMap [("size", .str "integer"), ("label?", .str "Word")]), ("minProperties", .str "2")]),
      ("Word", exMap [("type", .str "string"), ("maxLength", .str "4")])])])]

/-- These files; the numbers 2 and 4 are known. -/
def exTypesEnv : Env :=
  { exFilesEnv exTypes with decodeUint := fun n => if n.value = "4" then some (some 4) else if n.value = "2" then some (some 2) else none }

/-- Parsed. -/
def exTypesModel : St := (parseFromPath exTypesEnv 20 20 "a.raml" {}).2

/-- Parsed and unwrapped. -/
def exTypesUnwrapped : St := (unwrapShapes 20 (exTypesModel.fragments.map (·.2)) (exTypesModel.fragments.map (·.2)) exTypesModel).2

/-- A team. -/
def exTeam (boss label : String) : GoVal :=
  .map [("size", .int 3), ("label", .str label), ("boss", .map [("name", .str boss)]), ("tree", .map [("word", .str "oak"), ("next", .map [("word", .str "elm"), ("next", .nil)])])]

theorem exTeam_value (b l : String) : GoValue (exTeam b l) := by
  unfold exTeam
  refine .map _ fun e he => ?_
  simp only [List.mem_cons, List.not_mem_nil, or_false] at he
  rcases he with rfl | rfl | rfl | rfl
  · exact .int 3 (by decide) (by decide)
  · exact .str _
  · refine .map _ fun e he => ?_
    simp only [List.mem_singleton] at he
    subst he
    exact .str _
  · refine .map _ fun e he => ?_
    simp only [List.mem_cons, List.not_mem_nil, or_false] at he
    rcases he with rfl | rfl
    · exact .str _
    · refine .map _ fun e he => ?_
      simp only [List.mem_cons, List.not_mem_nil, or_false] at he
      rcases he with rfl | rfl
      · exact .str _
      · exact .nil

theorem exTypes_straight : Straight exTypesModel := Mean.straightB_of (rank := fun a => if a = 7 ∨ a = 8 ∨ a = 9 then 1 else 0) (by decide +kernel)

/-- The hypotheses of C69 are met, and the conclusion tells values apart: the name of the boss has to have at most four characters, by a type that is four declarations away
in another file, and the label has to meet what the team says about it and what the group says. -/
example :
    parseFromPath exTypesEnv 20 20 "a.raml" {} = (.ok (.library 0), exTypesModel) ∧ Straight exTypesModel ∧
    unwrapShapes 20 (exTypesModel.fragments.map (·.2)) (exTypesModel.fragments.map (·.2)) exTypesModel = (.ok (), exTypesUnwrapped) ∧
    DeclaredType exTypesModel 0 ∧ DeclaredType exTypesModel 9 ∧
    Means exTypesEnv.toExt exTypesModel 0 (exTeam "Ann" "red") ∧ Means exTypesEnv.toExt exTypesModel 9 (exTeam "Ann" "red") ∧
    ¬ Means exTypesEnv.toExt exTypesModel 0 (exTeam "Annie" "red") ∧ ¬ Means exTypesEnv.toExt exTypesModel 9 (exTeam "Annie" "red") ∧
    ¬ Means exTypesEnv.toExt exTypesModel 0 (exTeam "Ann" "r") ∧ ¬ Means exTypesEnv.toExt exTypesModel 0 (exTeam "Ann" "purple") := by
  have h1 : parseFromPath exTypesEnv 20 20 "a.raml" {} = (.ok (.library 0), exTypesModel) := exParses (by decide +kernel)
  have h2 : unwrapShapes 20 (exTypesModel.fragments.map (·.2)) (exTypesModel.fragments.map (·.2)) exTypesModel = (.ok (), exTypesUnwrapped) := exUnwraps (by decide +kernel)
  have hd : ∀ a, (exTypesModel.fragments.map (·.2)).contains (.library 0) = true →
      (exTypesModel.libs[0]?).map (fun l => l.types.map (·.2) |>.contains a) = some true → DeclaredType exTypesModel a := fun a hf hl => by
    obtain ⟨l, k1, k2⟩ := Option.map_eq_some_iff.1 hl
    simp only [List.contains_eq_mem, List.mem_map, decide_eq_true_eq] at k2 hf
    obtain ⟨e, k3, rfl⟩ := k2
    obtain ⟨⟨k, g⟩, k4, rfl⟩ := hf
    exact .type k4 k1 k3
  have d0 : DeclaredType exTypesModel 0 := hd 0 (by decide +kernel) (by decide +kernel)
  have d9 : DeclaredType exTypesModel 9 := hd 9 (by decide +kernel) (by decide +kernel)
  have c0 := (c69_unwrapping_keeps_meaning _ _ _ _ _ _ _ h1 exTypes_straight _ .rfl .rfl h2 d0).2
  have c9 := (c69_unwrapping_keeps_meaning _ _ _ _ _ _ _ h1 exTypes_straight _ .rfl .rfl h2 d9).2
  refine ⟨h1, exTypes_straight, h2, d0, d9, (c0 _ (exTeam_value _ _)).1.1 ⟨20, by decide +kernel⟩, (c9 _ (exTeam_value _ _)).1.1 ⟨20, by decide +kernel⟩,
    (c0 _ (exTeam_value _ _)).2.1 ⟨20, "length must be less than", by decide +kernel⟩, (c9 _ (exTeam_value _ _)).2.1 ⟨20, "value does not match any type", by decide +kernel⟩,
    (c0 _ (exTeam_value _ _)).2.1 ⟨20, "length must be greater than", by decide +kernel⟩, (c0 _ (exTeam_value _ _)).2.1 ⟨20, "length must be less than", by decide +kernel⟩⟩

/-- The order of the fragments can be another one. -/
example : exResult (unwrapShapes 20 (exTypesModel.fragments.reverse.map (·.2)) (exTypesModel.fragments.map (·.2)) exTypesModel) = some () ∧
    (exTypesModel.fragments.reverse.map (·.2)).Perm (exTypesModel.fragments.map (·.2)) ∧ exTypesModel.fragments.map (·.1) = ["a.raml", "b.raml"] :=
  ⟨by decide +kernel, (List.reverse_perm _).map _, by decide +kernel⟩

/-! ## What the provisos are for -/

/-- An object type with a bound, and a recursive type that is built on it. -/
def exGrow : List (String × String × YNode) := [
  ("a.raml", "#%RAML 1.0 Library\na", exDoc [
    ("types", exMap [
      ("Node", exMap [("type", .str "Base"), ("properties", exMap [("next?", .str "Node")])]),
      ("Base", exMap [("type", .str "object"), ("minProperties", .str "2")])])])]

/-- These files; the number 2 is known. -/
def exGrowEnv : Env := { exFilesEnv exGrow with decodeUint := fun n => if n.value = "2" then some (some 2) else none }

/-- Parsed. -/
def exGrowModel : St := (parseFromPath exGrowEnv 20 20 "a.raml" {}).2

/-- Parsed and unwrapped. -/
def exGrowUnwrapped : St := (unwrapShapes 20 (exGrowModel.fragments.map (·.2)) (exGrowModel.fragments.map (·.2)) exGrowModel).2

/-- The bound of an object type at `a`, computed. -/
theorem exBound {s : St} {a k : Nat} (h : ((s.shapeAt a).map fun q => match q with | .object f => f.minProperties | _ => none) = some (some k)) :
    ∃ f, s.shapeAt a = some (.object f) ∧ f.minProperties = some k := by
  obtain ⟨q, h1, h2⟩ := Option.map_eq_some_iff.1 h
  cases q <;> first | exact ⟨_, h1, h2⟩ | cases h2

/-- The type of a property of the object type at `a`, computed. -/
theorem exPropAt {s : St} {a x : Nat} {k : String} (h : ((s.shapeAt a).map fun q => match q with | .object f => (OMap.get (s.props f.properties) k).map (·.base) | _ => none) = some (some x)) :
    ∃ f p, s.shapeAt a = some (.object f) ∧ OMap.get (s.props f.properties) k = some p ∧ p.base = x := by
  obtain ⟨q, h1, h2⟩ := Option.map_eq_some_iff.1 h
  cases q with
  | object f =>
    obtain ⟨p, h3, h4⟩ := Option.map_eq_some_iff.1 h2
    exact ⟨f, p, h1, h3, h4⟩
  | _ => cases h2

/-- Why recursive types must not be built on others: where such a type refers to itself, it has lost the restrictions of its parents. -/
theorem c69_recursive_heir_loses_restrictions :
    parseFromPath exGrowEnv 20 20 "a.raml" {} = (.ok (.library 0), exGrowModel) ∧
    unwrapShapes 20 (exGrowModel.fragments.map (·.2)) (exGrowModel.fragments.map (·.2)) exGrowModel = (.ok (), exGrowUnwrapped) ∧ DeclaredType exGrowModel 0 ∧
    Accepts exGrowEnv.toExt exGrowUnwrapped 0 (.map [("id", .str "a"), ("next", .map [])]) ∧
    ¬ Means exGrowEnv.toExt exGrowModel 0 (.map [("id", .str "a"), ("next", .map [])]) := by
  refine ⟨exParses (by decide +kernel), exUnwraps (by decide +kernel), exDeclares (by decide +kernel), ⟨20, by decide +kernel⟩, fun h => ?_⟩
  have line : ∀ a, a = 0 ∨ a = 2 → Line exGrowModel a [0, 1] := fun a ha => by
    rcases ha with rfl | rfl
    · exact Mean.lineOf_line (n := 9) (by decide +kernel)
    · exact Mean.lineOf_line (n := 9) (by decide +kernel)
  obtain ⟨f1, hf1, hk⟩ := exBound (s := exGrowModel) (a := 1) (k := 2) (by decide +kernel)
  obtain ⟨f0, p, hf0, hp, hpx⟩ := exPropAt (s := exGrowModel) (a := 0) (x := 2) (k := "next") (by decide +kernel)
  have := h (fun a v => a = 0 ∨ a = 2 → ∀ m, v = .map m → 2 ≤ m.length ∧ ∀ x, ("next", x) ∈ m → ∀ m', x = .map m' → 2 ≤ m'.length) (fun a v l hl hok ha m hm => ?_)
    (.inl rfl) _ rfl
  · have := this.2 (.map []) (by simp) [] rfl
    simp at this
  · have hll := Kin.Line.unique hl (line a ha)
    subst hll
    unfold LineOK at hok
    simp only [List.head?_cons, Option.bind_some, hf0] at hok
    obtain ⟨m1, e1, h1, _, h3, _⟩ := hok
    rw [hm] at e1
    cases e1
    have hb := h1 1 (by simp) f1 hf1
    refine ⟨?_, fun x hx m' hm' => ?_⟩
    · rw [hk] at hb
      exact hb.1 2 rfl
    · have := h3 0 (by simp) f0 hf0 "next" x p hx ((OMap.get_some_iff _ _ _).1 hp)
      rw [hpx] at this
      exact (this (.inr rfl) m' hm').1

end GoRaml.Props
