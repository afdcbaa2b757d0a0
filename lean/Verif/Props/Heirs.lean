import Verif.Props.Climb
import Verif.Spec.Heirs

/-!
# What the names of types lead to after unwrapping (C82)
-/

namespace GoRaml.Props

open GoRaml GoRaml.Spec

/-! ## In general -/

/-- No library declares a name twice. -/
theorem ready_named (E : Env) (s : St) (h : Load.Ready E s) : Flat.Named s := fun l hl => by
  obtain ⟨j, hj⟩ := List.mem_iff_getElem?.1 hl
  obtain ⟨d, _, h1, h2, _⟩ := h.held.new.libs j l (Nat.zero_le _) hj
  have key : ∀ {R : YNode → String → Addr → Prop} {k : String} {es : List (String × YNode)} {x : OMap Addr}, SectionReads R k es x → (x.map (·.1)).Nodup := by
    intro R k es x hs
    unfold SectionReads Reads at hs
    split at hs
    · subst hs; exact List.nodup_nil
    · obtain ⟨l, _, rfl⟩ := hs
      exact Read.nodup_filled l
  exact ⟨key h2, key h1⟩

section
variable (E : Env) (s : St) (h : Load.Ready E s) (hu : NoUnions s)
  {k : Nat} {frags frags' : List FragRef} (hf : frags.Perm (s.fragments.map (·.2))) (hf' : frags'.Perm (s.fragments.map (·.2))) {s' : St}
  (hr : unwrapShapes k frags frags' s = (.ok (), s'))

include h hu hf hf' hr

/-- Each type that is not just another name of a type says after unwrapping what it said before. -/
theorem ready_own_kept {a : Addr} {b : Base} (hb : s.base a = some b) (ha : b.alias = none) : ∃ b', s'.base a = some b' ∧ SaysTheSame b b' := by
  have hl := h.held.loaded
  have hw := Whole.loaded_wf (K := anyValues) hl (fun _ _ _ h => fine_any h) (fun _ _ _ => ⟨fun _ _ => trivial, fun _ _ _ _ _ _ => trivial, fun _ _ => trivial⟩)
    (fun _ _ _ _ => trivial)
  obtain ⟨s1, s2, e', _, ⟨j, _⟩, _, hlen, _, mk, rfl⟩ := climb_steps E s h hu hw hf hf' hr
  have hlt : a < s1.bases.length := Nat.lt_of_lt_of_le (Stops.base_len hb) hlen.bases
  have hb1 : s1.base a = some s1.bases[a] := List.getElem?_eq_getElem hlt
  generalize s1.bases[a] = b1 at hb1
  obtain ⟨q, v, hb2, _⟩ := mk.old a b1 hb1
  obtain ⟨b0, k0, _, k2⟩ := j.own a b1 hb1
  rw [hb] at k0; cases k0
  obtain ⟨k3, k4⟩ := k2 ha
  simp only [Climb.own, Prod.mk.injEq] at k3
  obtain ⟨⟨h1, h2, h3, h4⟩, h5, h6, h7, h8, h9⟩ := k3
  exact ⟨_, hb2, h1, h2, k4, h3, h4, h5, h6, h7, h8, h9⟩

/-- Each name that a library declares leads after unwrapping to the type it led to before, or to an ancestor of it that allows every value; and to nothing else. -/
theorem ready_names {i : Nat} {l : Lib} (hl : s.libs[i]? = some l) : ∃ l', s'.libs[i]? = some l' ∧ l'.types.map (·.1) = l.types.map (·.1) ∧
    l'.annotationTypes.map (·.1) = l.annotationTypes.map (·.1) ∧ (∀ x a r, (x, a) ∈ l.types → (x, r) ∈ l'.types → StandsFor s r a) ∧
    ∀ x a r, (x, a) ∈ l.annotationTypes → (x, r) ∈ l'.annotationTypes → StandsFor s r a := by
  have hld := h.held.loaded
  have hw := Whole.loaded_wf (K := anyValues) hld (fun _ _ _ h => fine_any h) (fun _ _ _ => ⟨fun _ _ => trivial, fun _ _ _ _ _ _ => trivial, fun _ _ => trivial⟩)
    (fun _ _ _ _ => trivial)
  have hso := (loaded_model_kept E s h.held.loaded k hf hf').2.libs
  rw [hr] at hso
  have hnm := ready_named E s h l (List.mem_of_getElem? hl)
  have hi := congrArg (·[i]?) hso
  simp only [List.getElem?_map, hl, Option.map_some] at hi
  obtain ⟨l', hl', ho⟩ := Option.map_eq_some_iff.1 hi
  simp only [Lib.Outline, Prod.mk.injEq] at ho
  obtain ⟨s1, s2, e', _, ⟨_, hL⟩, _, _, lp, _, rfl⟩ := climb_steps E s h hu hw hf hf' hr
  obtain ⟨l0, h0, h1⟩ := hL i l' (lp.bigger.libs ▸ hl')
  rw [hl] at h0; cases h0
  have one : ∀ (o : OMap Addr), (o.map (·.1)).Nodup → ∀ x a b, (x, a) ∈ o → (x, b) ∈ o → a = b := fun o hn x a b ha hb => by
    have := List.inj_on_of_nodup_map hn ha hb rfl
    exact (Prod.mk.inj this).2
  refine ⟨l', hl', ho.2.2.1, ho.2.2.2, fun x a r ha hr => ?_, fun x a r ha hr => ?_⟩
  · obtain ⟨a', h2, h3⟩ := h1 .types _ hr
    rw [one _ hnm.2 x a a' ha h2]
    exact h3
  · obtain ⟨a', h2, h3⟩ := h1 .annotationTypes _ hr
    rw [one _ hnm.1 x a a' ha h2]
    exact h3

/-- The same for the type of a data type file. -/
theorem ready_data_types {i : Nat} {d : DT} {a : Addr} (hd : s.dts[i]? = some d) (ha : d.shape = some a) : ∃ d' r, s'.dts[i]? = some d' ∧ d'.shape = some r ∧ StandsFor s r a := by
  have hl := h.held.loaded
  have hw := Whole.loaded_wf (K := anyValues) hl (fun _ _ _ h => fine_any h) (fun _ _ _ => ⟨fun _ _ => trivial, fun _ _ _ _ _ _ => trivial, fun _ _ => trivial⟩)
    (fun _ _ _ _ => trivial)
  have hwm := (loaded_model_kept E s h.held.loaded k hf hf').1
  rw [hr] at hwm
  replace hwm := hwm.dtTypes
  obtain ⟨s1, s2, e', _, ⟨j, _⟩, _, hlen, lp, _, rfl⟩ := climb_steps E s h hu hw hf hf' hr
  have hlt : i < s1.dts.length := Nat.lt_of_lt_of_le (List.getElem?_eq_some_iff.1 hd).1 hlen.dts
  have hd1 : s1.dts[i]? = some s1.dts[i] := List.getElem?_eq_getElem hlt
  generalize s1.dts[i] = d1 at hd1
  have hd2 : s2.dts[i]? = some d1 := by
    obtain ⟨t, ht⟩ := lp.bigger.dts
    rw [← ht, List.getElem?_append_left hlt, hd1]
  obtain ⟨r, hr', _⟩ := hwm d1 (List.mem_of_getElem? hd2)
  obtain ⟨d0, a0, k1, k2, k3⟩ := j.dts i d1 r hd1 hr'
  rw [hd] at k1; cases k1
  rw [ha] at k2; cases k2
  exact ⟨d1, r, hd2, hr', k3⟩

/-- A name whose type has no ancestor that allows every value leads to the same type as before. -/
theorem ready_same_type {i : Nat} {l : Lib} (hl : s.libs[i]? = some l) {x : String} {a : Addr} (ha : (x, a) ∈ l.types) (hn : ∀ r, AncestorOf s r a → s.shapeAt r ≠ some .any) :
    ∃ l', s'.libs[i]? = some l' ∧ (x, a) ∈ l'.types := by
  obtain ⟨l', h1, h2, _, h3, _⟩ := ready_names E s h hu hf hf' hr hl
  have hx : x ∈ l'.types.map (·.1) := by rw [h2]; exact List.mem_map_of_mem (f := (·.1)) ha
  obtain ⟨e, he, rfl⟩ := List.mem_map.1 hx
  refine ⟨l', h1, ?_⟩
  rcases h3 e.1 a e.2 ha he with h4 | ⟨h4, h5⟩
  · rw [← h4]; exact he
  · exact absurd h5 (hn _ h4)

end

/-! ## After parsing -/

section
variable (E : Env) (n m : Nat) (path : String) (f : FragRef) (s : St) (h : parseFromPath E n m path {} = (.ok f, s)) (hu : NoUnions s)
  {k : Nat} {frags frags' : List FragRef} (hf : frags.Perm (s.fragments.map (·.2))) (hf' : frags'.Perm (s.fragments.map (·.2))) {s' : St}
  (hr : unwrapShapes k frags frags' s = (.ok (), s'))

include h hu hf hf' hr

/-- C82: each type that is not just another name of a type says after unwrapping what it said before. -/
theorem c82_own_kept {a : Addr} {b : Base} (hb : s.base a = some b) (ha : b.alias = none) : ∃ b', s'.base a = some b' ∧ SaysTheSame b b' :=
  ready_own_kept E s (Load.ready_parsed h) hu hf hf' hr hb ha

/-- C82: each name that a library declares leads after unwrapping to the type it led to before, or to an ancestor of it that allows every value; and to nothing else. -/
theorem c82_names {i : Nat} {l : Lib} (hl : s.libs[i]? = some l) : ∃ l', s'.libs[i]? = some l' ∧ l'.types.map (·.1) = l.types.map (·.1) ∧
    l'.annotationTypes.map (·.1) = l.annotationTypes.map (·.1) ∧ (∀ x a r, (x, a) ∈ l.types → (x, r) ∈ l'.types → StandsFor s r a) ∧
    ∀ x a r, (x, a) ∈ l.annotationTypes → (x, r) ∈ l'.annotationTypes → StandsFor s r a :=
  ready_names E s (Load.ready_parsed h) hu hf hf' hr hl

/-- C82: the same for the type of a data type file. -/
theorem c82_data_types {i : Nat} {d : DT} {a : Addr} (hd : s.dts[i]? = some d) (ha : d.shape = some a) : ∃ d' r, s'.dts[i]? = some d' ∧ d'.shape = some r ∧ StandsFor s r a :=
  ready_data_types E s (Load.ready_parsed h) hu hf hf' hr hd ha

/-- C82: a name whose type has no ancestor that allows every value leads to the same type as before. -/
theorem c82_same_type {i : Nat} {l : Lib} (hl : s.libs[i]? = some l) {x : String} {a : Addr} (ha : (x, a) ∈ l.types) (hn : ∀ r, AncestorOf s r a → s.shapeAt r ≠ some .any) :
    ∃ l', s'.libs[i]? = some l' ∧ (x, a) ∈ l'.types :=
  ready_same_type E s (Load.ready_parsed h) hu hf hf' hr hl ha hn

end

/-! ## Heirs of a type that allows every value -/

/-- A type that allows every value and wants a custom facet, perhaps an heir that has it, and one that has not. -/
def exRivals (first : Bool) : List (String × YNode) := [
  ("Root", exMap [("type", .str "any"), ("facets", exMap [("level", .str "string")])])] ++
  (if first then [("First", exMap [("type", .str "Root"), ("level", .str "x")])] else []) ++
  [("Second", exMap [("type", .str "Root"), ("default", .str "x")])]

/-- How parsing with unwrapping and validation ends. -/
def exRivalsRun (first : Bool) : Out FragRef × St := parseWith (exLibEnv (exRivals first)) {} 40 40 "a.raml" { withUnwrap := true, withValidate := true } {}

/-- C82, the violation: of two heirs of a type that allows every value the second is lost.  Its name leads to the parent, which has no default value; and that it lacks a required custom
facet goes unnoticed, although it is reported if the first heir is not there. -/
theorem c82_heir_lost :
    exResult (parseFromPath (exLibEnv (exRivals true)) 20 20 "a.raml" {}) = some (.library 0) ∧
    (exLibModel (exRivals true)).libs.map (·.types) = [[("Root", 0), ("First", 2), ("Second", 3)]] ∧ exDefault (exLibModel (exRivals true)) 3 = some "x" ∧
    (exLibUnwrap (exRivals true)).1 = .ok () ∧ (exLibUnwrap (exRivals true)).2.libs.map (·.types) = [[("Root", 0), ("First", 2), ("Second", 0)]] ∧
    exDefault (exLibUnwrap (exRivals true)).2 0 = none ∧
    exResult (exRivalsRun true) = some (.library 0) ∧ (exRivalsRun false).1 = .err "required custom facet is missing" :=
  ⟨by decide +kernel, by decide +kernel, by decide +kernel, by decide +kernel, by decide +kernel, by decide +kernel, by decide +kernel, by decide +kernel⟩

/-- The hypotheses of C82 are met: by this library, in which `Second` is an heir of a type that allows every value, and by one in which each name leads to its own type. -/
example : (parseFromPath (exLibEnv (exRivals true)) 20 20 "a.raml" {} = (.ok (.library 0), exLibModel (exRivals true)) ∧ NoUnions (exLibModel (exRivals true)) ∧
      unwrapShapes 20 ((exLibModel (exRivals true)).fragments.map (·.2)) ((exLibModel (exRivals true)).fragments.map (·.2)) (exLibModel (exRivals true)) =
        (.ok (), (exLibUnwrap (exRivals true)).2) ∧ DerivesFrom (exLibModel (exRivals true)) 3 0 ∧ (exLibModel (exRivals true)).shapeAt 0 = some .any) ∧
    parseFromPath (exLibEnv exDynasty) 20 20 "a.raml" {} = (.ok (.library 0), exLibModel exDynasty) ∧ NoUnions (exLibModel exDynasty) ∧
      unwrapShapes 20 ((exLibModel exDynasty).fragments.map (·.2)) ((exLibModel exDynasty).fragments.map (·.2)) (exLibModel exDynasty) = (.ok (), (exLibUnwrap exDynasty).2) ∧
      (exLibModel exDynasty).libs.map (·.types) = (exLibUnwrap exDynasty).2.libs.map (·.types) := by
  have nu : ∀ {s : St}, (s.bases.all fun b => match b.shape with | some (.union _ _) => false | _ => true) = true → NoUnions s := fun hs a b l e hb hq => by
    have := List.all_eq_true.1 hs b (List.mem_of_getElem? hb)
    rw [hq] at this
    cases this
  have ex1 := exUnwrapped (types := exRivals true) (names := [("Root", 0), ("First", 2), ("Second", 0)]) (by decide +kernel) (by decide +kernel) (by decide +kernel) (by decide +kernel)
  have ex2 := exUnwrapped (types := exDynasty) (names := [("Node", 0), ("Leaf", 4), ("Deep", 5), ("Other", 8), ("Again", 11), ("Name", 12)]) (by decide +kernel) (by decide +kernel) (by decide +kernel) (by decide +kernel)
  refine ⟨⟨ex1.1, nu (by decide +kernel), ex1.2.1, derives_parent (l := [0]) (by decide +kernel) (by simp), ?_⟩, ex2.1, nu (by decide +kernel), ex2.2.1, by decide +kernel⟩
  have key : ∀ {s : St} {a : Addr}, (match s.shapeAt a with | some .any => true | _ => false) = true → s.shapeAt a = some .any := fun {s a} h => by
    split at h
    · assumption
    · cases h
  exact key (by decide +kernel)

end GoRaml.Props
