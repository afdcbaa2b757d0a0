import Verif.Lemmas.ReadChange
import Verif.Props.Names

/-!
# Decoding fidelity: facets
-/

namespace GoRaml.Read

open GoRaml GoRaml.Spec GoRaml.Load

/-! ## Pure facets -/

theorem orErr_bind {α β : Type} {msg : String} {o : Option α} {g : α → Out β} {y : β} (h : (orErr msg o).bind g = .ok y) : ∃ x, o = some x ∧ g x = .ok y := by
  cases o with
  | none => simp [orErr, Out.bind] at h
  | some x => exact ⟨x, rfl, h⟩

theorem out_bind {α β : Type} {o : Out α} {g : α → Out β} {y : β} (h : o.bind g = .ok y) : ∃ x, o = .ok x ∧ g x = .ok y := by
  cases o with
  | ok x => exact ⟨x, rfl, h⟩
  | err e => simp [Out.bind] at h
  | panic e => simp [Out.bind] at h
  | diverge => simp [Out.bind] at h

theorem foldl_fail {α β : Type} (g : List β → α → Out (List β)) : ∀ (l : List α) (o : Out (List β)) {r : List β},
    l.foldl (fun acc n => acc.bind fun l => g l n) o = .ok r → ∃ l0, o = .ok l0
  | [], o, r, h => ⟨r, h⟩
  | x :: l, o, r, h => by
    obtain ⟨l1, h1⟩ := foldl_fail g l _ h
    obtain ⟨l0, h2, _⟩ := out_bind h1
    exact ⟨l0, h2⟩

theorem values_fold {E : Env} {loc : String} {g : List GoVal → YNode → Out (List GoVal)}
    (hg : ∀ l n r, g l n = .ok r → ∃ d, ValueOf E loc n d ∧ r = l ++ [d]) : ∀ (ns : List YNode) (l r : List GoVal),
    ns.foldl (fun (acc : Out (List GoVal)) n => acc.bind fun l => g l n) (.ok l) = .ok r → ∃ t, r = l ++ t ∧ List.Forall₂ (ValueOf E loc) ns t
  | [], l, r, h => by
    simp only [List.foldl_nil, Out.ok.injEq] at h; subst h
    exact ⟨[], by simp, .nil⟩
  | n :: ns, l, r, h => by
    simp only [List.foldl_cons] at h
    obtain ⟨l1, h1⟩ := foldl_fail g ns _ h
    rw [h1] at h
    obtain ⟨d, hd, rfl⟩ := hg l n l1 h1
    obtain ⟨t, rfl, ht⟩ := values_fold hg ns _ r h
    exact ⟨d :: t, by simp, .cons hd ht⟩

theorem makeEnum_reads {E : Env} {loc : String} {v : YNode} {l : List GoVal} (h : makeEnum E v loc = .ok l) : ValuesOf E loc v (some l) := by
  unfold makeEnum at h
  split at h
  · cases h
  · rename_i hk
    obtain ⟨t, rfl, ht⟩ := values_fold (g := fun l n => (makeRootNode E n loc).bind fun d => .ok (l ++ [d])) (fun l n r hr => by
      obtain ⟨d, h1, h2⟩ := out_bind hr
      cases h2
      exact ⟨d, h1, rfl⟩) _ _ _ h
    exact ⟨not_not.1 hk, _, rfl, by simpa using ht⟩

theorem makeFileTypes_reads {E : Env} {loc : String} {v : YNode} {l : List GoVal} (h : makeFileTypes E v loc = .ok l) : ValuesOf E loc v (some l) := by
  unfold makeFileTypes at h
  split at h
  · cases h
  · rename_i hk
    obtain ⟨t, rfl, ht⟩ := values_fold (g := fun l n => if n.tag ≠ "!!str" then .err "member of fileTypes must be string"
      else (makeRootNode E n loc).bind fun d => .ok (l ++ [d])) (fun l n r hr => by
      split at hr
      · cases hr
      obtain ⟨d, h1, h2⟩ := out_bind hr
      cases h2
      exact ⟨d, h1, rfl⟩) _ _ _ h
    exact ⟨not_not.1 hk, _, rfl, by simpa using ht⟩

section
variable {E : Env} {s : St} {loc : String} {R : YNode → String → Addr → Prop} {own : Prop} {pre : List (String × YNode)} {k : String} {v : YNode}

theorem stringFacet_reads {f f' : StringF} (h : stringFacet E loc f k v = some (.ok f')) (hr : FacetsRead E s loc R own pre (.string f)) :
    FacetsRead E s loc R own (pre ++ [(k, v)]) (.string f') := by
  obtain ⟨h1, h2, h3, h4⟩ := hr
  unfold stringFacet at h
  split at h
  · next e =>
    subst e; obtain ⟨x, hx, hy⟩ := orErr_bind (Option.some.inj h); cases hy
    exact ⟨reads_here hx, reads_there (by decide) h2, reads_there (by decide) h3, reads_there (by decide) h4⟩
  split at h
  · next e =>
    subst e; obtain ⟨x, hx, hy⟩ := orErr_bind (Option.some.inj h); cases hy
    exact ⟨reads_there (by decide) h1, reads_here hx, reads_there (by decide) h3, reads_there (by decide) h4⟩
  split at h
  · next e =>
    subst e; have h := Option.some.inj h
    split at h
    · cases h
    split at h
    · cases h; exact ⟨reads_there (by decide) h1, reads_there (by decide) h2, reads_here rfl, reads_there (by decide) h4⟩
    · cases h
  split at h
  · next e =>
    subst e; obtain ⟨x, hx, hy⟩ := out_bind (Option.some.inj h); cases hy
    exact ⟨reads_there (by decide) h1, reads_there (by decide) h2, reads_there (by decide) h3, reads_here (makeEnum_reads hx)⟩
  · cases h

theorem integerFacet_reads {f f' : IntegerF} (h : integerFacet E loc f k v = some (.ok f')) (hr : FacetsRead E s loc R own pre (.integer f)) :
    FacetsRead E s loc R own (pre ++ [(k, v)]) (.integer f') := by
  obtain ⟨h1, h2, h3, h4, h5⟩ := hr
  unfold integerFacet at h
  split at h
  · next e =>
    subst e; have h := Option.some.inj h
    split at h
    · cases h
    obtain ⟨x, hx, hy⟩ := orErr_bind h; cases hy
    exact ⟨reads_here ⟨x, hx, rfl⟩, reads_there (by decide) h2, reads_there (by decide) h3, reads_there (by decide) h4, reads_there (by decide) h5⟩
  split at h
  · next e =>
    subst e; have h := Option.some.inj h
    split at h
    · cases h
    obtain ⟨x, hx, hy⟩ := orErr_bind h; cases hy
    exact ⟨reads_there (by decide) h1, reads_here ⟨x, hx, rfl⟩, reads_there (by decide) h3, reads_there (by decide) h4, reads_there (by decide) h5⟩
  split at h
  · next e =>
    subst e; obtain ⟨x, hx, hy⟩ := orErr_bind (Option.some.inj h); cases hy
    exact ⟨reads_there (by decide) h1, reads_there (by decide) h2, reads_here hx, reads_there (by decide) h4, reads_there (by decide) h5⟩
  split at h
  · next e =>
    subst e; have h := Option.some.inj h
    split at h
    · cases h
    obtain ⟨x, hx, hy⟩ := orErr_bind h; cases hy
    exact ⟨reads_there (by decide) h1, reads_there (by decide) h2, reads_there (by decide) h3, reads_here hx, reads_there (by decide) h5⟩
  split at h
  · next e =>
    subst e; obtain ⟨x, hx, hy⟩ := out_bind (Option.some.inj h); cases hy
    exact ⟨reads_there (by decide) h1, reads_there (by decide) h2, reads_there (by decide) h3, reads_there (by decide) h4, reads_here (makeEnum_reads hx)⟩
  · cases h

theorem numberFacet_reads {f f' : NumberF} (h : numberFacet E loc f k v = some (.ok f')) (hr : FacetsRead E s loc R own pre (.number f)) :
    FacetsRead E s loc R own (pre ++ [(k, v)]) (.number f') := by
  obtain ⟨h1, h2, h3, h4, h5⟩ := hr
  unfold numberFacet at h
  split at h
  · next e =>
    subst e; obtain ⟨x, hx, hy⟩ := orErr_bind (Option.some.inj h); cases hy
    exact ⟨reads_here hx, reads_there (by decide) h2, reads_there (by decide) h3, reads_there (by decide) h4, reads_there (by decide) h5⟩
  split at h
  · next e =>
    subst e; obtain ⟨x, hx, hy⟩ := orErr_bind (Option.some.inj h); cases hy
    exact ⟨reads_there (by decide) h1, reads_here hx, reads_there (by decide) h3, reads_there (by decide) h4, reads_there (by decide) h5⟩
  split at h
  · next e =>
    subst e; have h := Option.some.inj h
    split at h
    · cases h
    obtain ⟨x, hx, hy⟩ := orErr_bind h; cases hy
    exact ⟨reads_there (by decide) h1, reads_there (by decide) h2, reads_there (by decide) h3, reads_here hx, reads_there (by decide) h5⟩
  split at h
  · next e =>
    subst e; obtain ⟨x, hx, hy⟩ := out_bind (Option.some.inj h); cases hy
    exact ⟨reads_there (by decide) h1, reads_there (by decide) h2, reads_there (by decide) h3, reads_there (by decide) h4, reads_here (makeEnum_reads hx)⟩
  split at h
  · next e =>
    subst e; obtain ⟨x, hx, hy⟩ := orErr_bind (Option.some.inj h); cases hy
    exact ⟨reads_there (by decide) h1, reads_there (by decide) h2, reads_here hx, reads_there (by decide) h4, reads_there (by decide) h5⟩
  · cases h

theorem fileFacet_reads {f f' : FileF} (h : fileFacet E loc f k v = some (.ok f')) (hr : FacetsRead E s loc R own pre (.file f)) :
    FacetsRead E s loc R own (pre ++ [(k, v)]) (.file f') := by
  obtain ⟨h1, h2, h3⟩ := hr
  unfold fileFacet at h
  split at h
  · next e =>
    subst e; obtain ⟨x, hx, hy⟩ := orErr_bind (Option.some.inj h); cases hy
    exact ⟨reads_here hx, reads_there (by decide) h2, reads_there (by decide) h3⟩
  split at h
  · next e =>
    subst e; obtain ⟨x, hx, hy⟩ := orErr_bind (Option.some.inj h); cases hy
    exact ⟨reads_there (by decide) h1, reads_here hx, reads_there (by decide) h3⟩
  split at h
  · next e =>
    subst e; obtain ⟨x, hx, hy⟩ := out_bind (Option.some.inj h); cases hy
    exact ⟨reads_there (by decide) h1, reads_there (by decide) h2, reads_here (makeFileTypes_reads hx)⟩
  · cases h

theorem allUnder_here (v : YNode) : allUnder k (pre ++ [(k, v)]) = allUnder k pre ++ entriesOf v.content := by simp [allUnder]

theorem allUnder_there {k' : String} (h : k ≠ k') (v : YNode) : allUnder k' (pre ++ [(k, v)]) = allUnder k' pre := by simp [allUnder, h]

theorem reads_skip {α : Type} {k' : String} {d x : α} {read : YNode → α → Prop} {l : List String} (hk : k ∉ l) (h : Reads k' pre d read x)
    (hm : k' ∈ l) : Reads k' (pre ++ [(k, v)]) d read x := reads_there (fun e => hk (e ▸ hm)) h

/-- A facet of another type changes nothing. -/
theorem FacetsRead.skip {sh : Shape} (hk : k ∉ facetNames (Kind sh)) (hr : FacetsRead E s loc R own pre sh) : FacetsRead E s loc R own (pre ++ [(k, v)]) sh := by
  cases sh with
  | string f => obtain ⟨h1, h2, h3, h4⟩ := hr; exact ⟨reads_skip hk h1 (by simp [Kind, facetNames]), reads_skip hk h2 (by simp [Kind, facetNames]), reads_skip hk h3 (by simp [Kind, facetNames]), reads_skip hk h4 (by simp [Kind, facetNames])⟩
  | integer f =>
    obtain ⟨h1, h2, h3, h4, h5⟩ := hr
    exact ⟨reads_skip hk h1 (by simp [Kind, facetNames]), reads_skip hk h2 (by simp [Kind, facetNames]), reads_skip hk h3 (by simp [Kind, facetNames]), reads_skip hk h4 (by simp [Kind, facetNames]), reads_skip hk h5 (by simp [Kind, facetNames])⟩
  | number f =>
    obtain ⟨h1, h2, h3, h4, h5⟩ := hr
    exact ⟨reads_skip hk h1 (by simp [Kind, facetNames]), reads_skip hk h2 (by simp [Kind, facetNames]), reads_skip hk h3 (by simp [Kind, facetNames]), reads_skip hk h4 (by simp [Kind, facetNames]), reads_skip hk h5 (by simp [Kind, facetNames])⟩
  | file f => obtain ⟨h1, h2, h3⟩ := hr; exact ⟨reads_skip hk h1 (by simp [Kind, facetNames]), reads_skip hk h2 (by simp [Kind, facetNames]), reads_skip hk h3 (by simp [Kind, facetNames])⟩
  | boolean e => exact reads_skip hk (show Reads "enum" _ _ _ _ from hr) (by simp [Kind, facetNames])
  | datetime e => have h1 : Reads "format" pre none (fun v x => E.decodeStr v = some x) e := hr; exact reads_skip hk h1 (by simp [Kind, facetNames])
  | array f =>
    obtain ⟨h1, h2, h3, h4⟩ := hr
    exact ⟨reads_skip hk h1 (by simp [Kind, facetNames]), reads_skip hk h2 (by simp [Kind, facetNames]), reads_skip hk h3 (by simp [Kind, facetNames]), fun ho => reads_skip hk (h4 ho) (by simp [Kind, facetNames])⟩
  | object f =>
    obtain ⟨h1, h2, h3, h4, h5, h6⟩ := hr
    refine ⟨reads_skip hk h1 (by simp [Kind, facetNames]), reads_skip hk h2 (by simp [Kind, facetNames]), reads_skip hk h3 (by simp [Kind, facetNames]), reads_skip hk h4 (by simp [Kind, facetNames]), reads_skip hk h5 (by simp [Kind, facetNames]), ?_⟩
    rw [allUnder_there (k' := "properties") (by rintro rfl; exact hk (by simp [Kind, facetNames]))]; exact h6
  | _ => trivial

end

/-! ## Which facets are custom -/

theorem shapeFacet_none {E : Env} {c : Calls} {loc : String} {sh : Shape} {k : String} {v : YNode} (h : shapeFacet E c loc sh k v = none) :
    k ∉ facetNames (Kind sh) := by
  cases sh <;> simp only [shapeFacet, integerFacet, numberFacet, stringFacet, fileFacet, arrayFacet, objectFacet, Option.map_eq_none_iff] at h <;>
    simp only [Kind, facetNames] <;> simp <;> (try split_ifs at h) <;> simp_all

theorem shapeFacet_some {E : Env} {c : Calls} {loc : String} {sh : Shape} {k : String} {v : YNode} {m : M St Shape} (h : shapeFacet E c loc sh k v = some m) :
    k ∈ facetNames (Kind sh) := by
  cases sh <;> simp only [shapeFacet, integerFacet, numberFacet, stringFacet, fileFacet, arrayFacet, objectFacet, Option.map_eq_some_iff] at h <;>
    simp only [Kind, facetNames] <;> simp <;> (try split_ifs at h) <;> simp_all

/-! ## Names of properties -/

theorem optional_cases (k : String) : (∃ n, k = n ++ "?" ∧ chompImplicitOptional k = (n, true)) ∨ ((∀ n, n ++ "?" ≠ k) ∧ chompImplicitOptional k = (k, false)) := by
  by_cases h : ∃ n, k = n ++ "?"
  · obtain ⟨n, rfl⟩ := h
    exact .inl ⟨n, rfl, Props.chomp_mark n⟩
  · exact .inr ⟨fun n e => h ⟨n, e.symm⟩, Props.chomp_plain fun m e => h ⟨m, e⟩⟩

/-- What `PropertyReads` says about the name. -/
def NameReads (k : String) (required : Option Bool) (p : Property) : Prop :=
  match required with
  | some r => p.name = k ∧ p.required = r
  | none => (p.name ++ "?" = k ∧ p.required = false) ∨ ((∀ n, n ++ "?" ≠ k) ∧ p.name = k ∧ p.required = true)

theorem nameProperty_reads (k : String) (a : Addr) (r : Option Bool) :
    (nameProperty k (chompImplicitOptional k).1 (chompImplicitOptional k).2 a r).base = a ∧
      NameReads k r (nameProperty k (chompImplicitOptional k).1 (chompImplicitOptional k).2 a r) := by
  rcases optional_cases k with ⟨n, rfl, h⟩ | ⟨h1, h⟩
  · rw [h]
    cases r with
    | none => exact ⟨rfl, .inl ⟨rfl, rfl⟩⟩
    | some r => exact ⟨rfl, rfl, rfl⟩
  · rw [h]
    cases r with
    | none => exact ⟨rfl, .inr ⟨h1, rfl, rfl⟩⟩
    | some r => exact ⟨rfl, rfl, rfl⟩

theorem patternKey_eq (k : String) : patternKey k = isPatternName k := by
  rw [Bool.eq_iff_iff]
  simp [patternKey, isPatternName, Nat.succ_le_iff, and_assoc]

theorem patternKey_mark (n : String) : patternKey (n ++ "?") = false := by
  simp [patternKey]

/-- What an entry of `properties` declares. -/
theorem declareProperty_reads {E : Ext} {k : String} {a : Addr} {r : Option Bool} {d : Declared} (h : declareProperty E k (.ok (a, r)) = .ok d) :
    match d with
    | .property p => isPatternName (chompImplicitOptional k).1 = false ∧ patternKey k = false ∧ p.base = a ∧ NameReads k r p
    | .pattern key p => isPatternName (chompImplicitOptional k).1 = true ∧ patternKey k = true ∧ key = k ∧ k = "/" ++ p.pattern ++ "/" ∧ p.base = a := by
  unfold declareProperty at h
  simp only [Out.bind] at h
  have hn := nameProperty_reads k a r
  split at h
  · rename_i hp
    split at h
    · cases h
    · rename_i hr
      simp only [Bool.or_eq_true, not_or, Bool.not_eq_true] at hr
      rcases optional_cases k with ⟨n, rfl, hc⟩ | ⟨h1, hc⟩
      · rw [hc] at hr; simp at hr
      · rw [hc] at hp h
        split at h
        · cases h
          obtain ⟨p, h2, h3⟩ := Props.patternName_iff.1 hp
          refine ⟨by rw [hc]; exact hp, by rw [patternKey_eq]; exact hp, rfl, ?_, rfl⟩
          rw [h3]; exact h2
        · cases h
  · rename_i hp
    cases h
    refine ⟨by simpa using hp, ?_, hn⟩
    rcases optional_cases k with ⟨n, rfl, hc⟩ | ⟨h1, hc⟩
    · exact patternKey_mark n
    · rw [hc] at hp
      rw [patternKey_eq]
      simpa using hp

/-! ## Properties -/

/-- What the calls do. -/
structure Good (E : Env) (c : Calls) : Prop where
  shape : ∀ {s s' : St} {v name loc a}, Tied E s → c.makeShape v name loc s = (.ok a, s') → Call E s s' ∧ D E False (between s s') s' loc v name a
  type : ∀ {s s' : St} {path i}, Tied E s → c.parseDataType path s = (.ok i, s') → Call E s s' ∧ ∃ d, s'.dts[i]? = some d ∧ d.location = path
  lib : ∀ {s s' : St} {path i}, Tied E s → c.parseLibrary path s = (.ok i, s') → Call E s s'

section
variable {E : Env} {x rg : Region} {s0 s s' : St} {loc : String}

theorem chg_carry {c rg' : Region} (h : Chg c s s') (hlen : s.bases.length ≤ s.fmaps.length) (ha : rg.Apart c) (hle : rg.Le rg') :
    Carry s s' (D E False rg s loc) (D E False rg' s' loc) := fun v n a hd =>
  ⟨(hd.chg h hlen ha).mono id hle, fun b hb => by
    obtain ⟨b', h1, h2⟩ := hd.foot
    rw [h1] at hb; cases hb
    exact ⟨b, (h.b a (lt_of_get h1) (ha.b a h2.at_)).trans h1, rfl⟩⟩

/-- The property maps belong to the shape being made. -/
def OwnMaps (s0 s : St) (rg : Region) (f : ObjectF) : Prop :=
  (∀ i, f.properties = some i → ¬ rg.p i ∧ s0.pmaps.length ≤ i ∧ i < s.pmaps.length) ∧
  (∀ i, f.patternProperties = some i → ¬ rg.q i ∧ s0.ppmaps.length ≤ i ∧ i < s.ppmaps.length)

theorem OwnMaps.call {f : ObjectF} (h : OwnMaps s0 s rg f) {c : Region} (hc : Chg c s s') : OwnMaps s0 s' (rg.or (between s s')) f :=
  ⟨fun i hi => ⟨fun hr => hr.elim (h.1 i hi).1 fun hr => absurd hr.1 (Nat.not_le.2 (h.1 i hi).2.2), (h.1 i hi).2.1, Nat.lt_of_lt_of_le (h.1 i hi).2.2 hc.pmaps⟩,
    fun i hi => ⟨fun hr => hr.elim (h.2 i hi).1 fun hr => absurd hr.1 (Nat.not_le.2 (h.2 i hi).2.2), (h.2 i hi).2.1, Nat.lt_of_lt_of_le (h.2 i hi).2.2 hc.ppmaps⟩⟩

theorem OwnMaps.chg {f : ObjectF} (h : OwnMaps s0 s rg f) {c : Region} (hc : Chg c s s') : OwnMaps s0 s' rg f :=
  ⟨fun i hi => ⟨(h.1 i hi).1, (h.1 i hi).2.1, Nat.lt_of_lt_of_le (h.1 i hi).2.2 hc.pmaps⟩,
    fun i hi => ⟨(h.2 i hi).1, (h.2 i hi).2.1, Nat.lt_of_lt_of_le (h.2 i hi).2.2 hc.ppmaps⟩⟩

theorem props_chg {i : Option Nat} {c : Region} (hc : Chg c s s') (hi : ∀ j, i = some j → j < s.pmaps.length ∧ ¬ c.p j) : s'.props i = s.props i := by
  cases i with
  | none => rfl
  | some j => simp only [St.props]; rw [hc.p j (hi j rfl).1 (hi j rfl).2]

theorem patProps_chg {i : Option Nat} {c : Region} (hc : Chg c s s') (hi : ∀ j, i = some j → j < s.ppmaps.length ∧ ¬ c.q j) : s'.patProps i = s.patProps i := by
  cases i with
  | none => rfl
  | some j => simp only [St.patProps]; rw [hc.q j (hi j rfl).1 (hi j rfl).2]

/-- While the properties of an object are read. -/
structure ObjAt (E : Env) (x : Region) (s0 : St) (loc : String) (rg : Region) (s : St) (f : ObjectF) (ps : List (String × YNode)) : Prop where
  inv : Inv E x s0 rg s
  maps : OwnMaps s0 s rg f
  reads : PropertiesRead s (D E False rg s loc) ps f

theorem PropertiesRead.carry {R R' : YNode → String → Addr → Prop} (c : Carry s s' R R') {ps : List (String × YNode)} {f : ObjectF}
    (h1 : s'.props f.properties = s.props f.properties) (h2 : s'.patProps f.patternProperties = s.patProps f.patternProperties)
    (h : PropertiesRead s R ps f) : PropertiesRead s' R' ps f where
  props := by rw [h1]; exact Lists.mono h.props fun e x hx => PropertyReads.carry c hx
  patProps := by rw [h2]; exact Lists.mono h.patProps fun e x hx => PatternReads.carry c hx

theorem ObjAt.call {f : ObjectF} {ps : List (String × YNode)} (h : ObjAt E x s0 loc rg s f ps) (hc : Call E s s') :
    ObjAt E x s0 loc (rg.or (between s s')) s' f ps where
  inv := h.inv.call hc
  maps := h.maps.call hc.chg
  reads := PropertiesRead.carry (chg_carry hc.chg (Nat.le_of_eq h.inv.tied.len.symm) Region.apart_none Region.le_left)
    (props_chg hc.chg fun i hi => ⟨(h.maps.1 i hi).2.2, id⟩) (patProps_chg hc.chg fun i hi => ⟨(h.maps.2 i hi).2.2, id⟩) h.reads

/-- The base being made stays as it is. -/
structure SameAt (a : Addr) (s s' : St) : Prop where
  base : s'.base a = s.base a
  fmap : s'.fmaps[a]? = s.fmaps[a]?

theorem SameAt.trans {a : Addr} {s1 s2 s3 : St} (h : SameAt a s1 s2) (h' : SameAt a s2 s3) : SameAt a s1 s3 := ⟨h'.base.trans h.base, h'.fmap.trans h.fmap⟩

theorem Call.same {a : Addr} (hc : Call E s s') (ht : Tied E s) (ha : a < s.bases.length) : SameAt a s s' :=
  ⟨hc.chg.b a ha id, hc.chg.fm a (by rw [ht.len]; exact ha) id⟩

theorem ensureProps_reads {f : ObjectF} {ps : List (String × YNode)} {i : Nat} (h : ObjAt E x s0 loc rg s f ps) (hr : ensureProps f.properties s = (.ok i, s'))
    (a : Addr) : ObjAt E x s0 loc rg s' { f with properties := some i } ps ∧ SameAt a s s' := by
  unfold ensureProps at hr
  cases hj : f.properties with
  | some j =>
    rw [hj] at hr
    obtain ⟨rfl, rfl⟩ := M.ret_ok.1 hr
    refine ⟨?_, rfl, rfl⟩
    have : ({ f with properties := some j } : ObjectF) = f := by rw [← hj]
    rw [this]; exact h
  | none =>
    rw [hj] at hr
    simp only at hr
    unfold Heap.newProps at hr
    cases hr
    have hc := chg_newProps (s := s) []
    have hlt : ∀ i, rg.p i → i < s.pmaps.length := fun i hi => (h.inv.le.p i hi).2
    refine ⟨⟨h.inv.write hc (h.inv.tied.same rfl rfl rfl (List.prefix_refl _) rfl) rfl rfl Region.apart_none (Region.none_le.on _), ⟨?_, (h.maps.chg hc).2⟩, ?_⟩, rfl, rfl⟩
    · intro i hi
      cases hi
      exact ⟨fun hr => Nat.lt_irrefl _ (hlt _ hr), h.inv.chg.pmaps, by simp⟩
    · have hp := PropertiesRead.carry (s' := { s with pmaps := s.pmaps ++ [[]] }) (chg_carry hc (Nat.le_of_eq h.inv.tied.len.symm) Region.apart_none .rfl)
        (by rw [hj]; rfl) (patProps_chg hc fun i hi => ⟨(h.maps.2 i hi).2.2, id⟩) h.reads
      refine ⟨?_, hp.patProps⟩
      have := hp.props
      rw [hj] at this
      simpa [St.props] using this

theorem ensurePatProps_reads {f : ObjectF} {ps : List (String × YNode)} {i : Nat} (h : ObjAt E x s0 loc rg s f ps)
    (hr : ensurePatProps f.patternProperties s = (.ok i, s')) (a : Addr) : ObjAt E x s0 loc rg s' { f with patternProperties := some i } ps ∧ SameAt a s s' := by
  unfold ensurePatProps at hr
  cases hj : f.patternProperties with
  | some j =>
    rw [hj] at hr
    obtain ⟨rfl, rfl⟩ := M.ret_ok.1 hr
    refine ⟨?_, rfl, rfl⟩
    have : ({ f with patternProperties := some j } : ObjectF) = f := by rw [← hj]
    rw [this]; exact h
  | none =>
    rw [hj] at hr
    simp only at hr
    unfold Heap.newPatProps at hr
    cases hr
    have hc := chg_newPatProps (s := s) []
    have hlt : ∀ i, rg.q i → i < s.ppmaps.length := fun i hi => (h.inv.le.q i hi).2
    refine ⟨⟨h.inv.write hc (h.inv.tied.same rfl rfl rfl (List.prefix_refl _) rfl) rfl rfl Region.apart_none (Region.none_le.on _), ⟨(h.maps.chg hc).1, ?_⟩, ?_⟩, rfl, rfl⟩
    · intro i hi
      cases hi
      exact ⟨fun hr => Nat.lt_irrefl _ (hlt _ hr), h.inv.chg.ppmaps, by simp⟩
    · have hp := PropertiesRead.carry (s' := { s with ppmaps := s.ppmaps ++ [[]] }) (chg_carry hc (Nat.le_of_eq h.inv.tied.len.symm) Region.apart_none .rfl)
        (props_chg hc fun i hi => ⟨(h.maps.1 i hi).2.2, id⟩) (by rw [hj]; rfl) h.reads
      refine ⟨hp.props, ?_⟩
      have := hp.patProps
      rw [hj] at this
      simpa [St.patProps] using this

theorem getBase_ok {a : Addr} {b : Base} (h : Heap.getBase a s = (.ok b, s')) : s' = s ∧ s.base a = some b := by
  unfold Heap.getBase at h
  split at h
  · rename_i hb; cases h; exact ⟨rfl, hb⟩
  · cases h

theorem props_modify {i : Nat} {g : OMap Property → OMap Property} (h : i < s.pmaps.length) :
    ({ s with pmaps := s.pmaps.modify i g } : St).props (some i) = g (s.props (some i)) := by
  simp [St.props, List.getElem?_eq_getElem h]

theorem patProps_modify {i : Nat} {g : OMap PatternProperty → OMap PatternProperty} (h : i < s.ppmaps.length) :
    ({ s with ppmaps := s.ppmaps.modify i g } : St).patProps (some i) = g (s.patProps (some i)) := by
  simp [St.patProps, List.getElem?_eq_getElem h]

theorem unmarshalProperty_reads {c : Calls} (hg : Good E c) {a : Addr} (ha : a < s0.bases.length) {f f' : ObjectF} {ps : List (String × YNode)} {k : String}
    {v : YNode} (h : ObjAt E x s0 loc rg s f ps) (hr : unmarshalProperty E c loc k v f s = (.ok f', s')) :
    ∃ rg', ObjAt E x s0 loc rg' s' f' (ps ++ [(k, v)]) ∧ SameAt a s s' ∧ f' = { f with properties := f'.properties, patternProperties := f'.patternProperties } := by
  unfold unmarshalProperty at hr
  split at hr
  · obtain ⟨i, s1, r1, r2⟩ := M.bind_ok.1 hr
    obtain ⟨h1, e1⟩ := ensurePatProps_reads h r1 a
    obtain ⟨d, s2, r3, r4⟩ := M.bind_ok.1 r2
    unfold makeDeclared at r3
    obtain ⟨t, s3, r5, r6⟩ := M.bind_ok.1 r3
    obtain ⟨hcall, hd⟩ := hg.shape h1.inv.tied r5
    obtain ⟨b, s4, r7, r8⟩ := M.bind_ok.1 r6
    obtain ⟨rfl, hb⟩ := getBase_ok r7
    obtain ⟨r9, rfl⟩ := M.lift_ok.1 r8
    have hdec := declareProperty_reads r9
    have h2 := h1.call hcall
    have e2 := hcall.same h1.inv.tied (Nat.lt_of_lt_of_le ha h1.inv.chg.bases)
    cases d with
    | property p => rename_i hp; rw [hdec.1] at hp; cases hp
    | pattern key p =>
      obtain ⟨-, k1, rfl, k2, k3⟩ := hdec
      obtain ⟨u, s5, r10, r11⟩ := M.bind_ok.1 r4
      obtain ⟨rfl, rfl⟩ := M.ret_ok.1 r11
      unfold Heap.setPatProp at r10
      cases r10
      have hc := chg_setPatProp (s := s4) i fun m => OMap.set m key p
      have hi := h2.maps.2 i rfl
      have hap : (rg.or (between s1 s4)).Apart (atPats i) := ⟨fun _ _ h => h, fun _ _ h => h, fun z hz he => hi.1 (he ▸ hz)⟩
      refine ⟨rg.or (between s1 s4), ⟨h2.inv.write hc (h2.inv.tied.same rfl rfl rfl (List.prefix_refl _) rfl) rfl rfl hap
        ⟨fun _ _ h => h.elim, fun _ _ h => h.elim, fun z hz he => absurd hz (Nat.not_lt.2 (he ▸ hi.2.1))⟩, h2.maps.chg hc, ?_, ?_⟩, e1.trans (e2.trans ⟨rfl, rfl⟩), rfl⟩
      · have hcar := chg_carry (loc := loc) (E := E) hc (Nat.le_of_eq h2.inv.tied.len.symm) hap .rfl
        rw [List.filter_append]
        simp only [List.filter_cons, k1, Bool.not_true, Bool.false_eq_true, if_false, List.filter_nil, List.append_nil]
        exact Lists.mono h2.reads.props fun e x hx => PropertyReads.carry hcar hx
      · have hcar := chg_carry (loc := loc) (E := E) hc (Nat.le_of_eq h2.inv.tied.len.symm) hap .rfl
        rw [List.filter_append, patProps_modify hi.2.2]
        simp only [List.filter_cons, k1, if_true, List.filter_nil]
        exact Lists.snoc (Lists.mono h2.reads.patProps fun e x hx => PatternReads.carry hcar hx) ⟨rfl, k2, by rw [k3]; exact (hcar _ _ _ (hd.mono id Region.le_right)).1⟩
  · obtain ⟨i, s1, r1, r2⟩ := M.bind_ok.1 hr
    obtain ⟨h1, e1⟩ := ensureProps_reads h r1 a
    obtain ⟨d, s2, r3, r4⟩ := M.bind_ok.1 r2
    unfold makeDeclared at r3
    obtain ⟨t, s3, r5, r6⟩ := M.bind_ok.1 r3
    obtain ⟨hcall, hd⟩ := hg.shape h1.inv.tied r5
    obtain ⟨b, s4, r7, r8⟩ := M.bind_ok.1 r6
    obtain ⟨rfl, hb⟩ := getBase_ok r7
    obtain ⟨r9, rfl⟩ := M.lift_ok.1 r8
    have hdec := declareProperty_reads r9
    have h2 := h1.call hcall
    have e2 := hcall.same h1.inv.tied (Nat.lt_of_lt_of_le ha h1.inv.chg.bases)
    cases d with
    | pattern key p => rename_i hp; exact absurd hdec.1 hp
    | property p =>
      obtain ⟨-, k1, k2, k3⟩ := hdec
      obtain ⟨u, s5, r10, r11⟩ := M.bind_ok.1 r4
      obtain ⟨rfl, rfl⟩ := M.ret_ok.1 r11
      unfold Heap.setProp at r10
      cases r10
      have hc := chg_setProp (s := s4) i fun m => OMap.set m p.name p
      have hi := h2.maps.1 i rfl
      have hap : (rg.or (between s1 s4)).Apart (atProps i) := ⟨fun _ _ h => h, fun z hz he => hi.1 (he ▸ hz), fun _ _ h => h⟩
      have hcar := chg_carry (loc := loc) (E := E) hc (Nat.le_of_eq h2.inv.tied.len.symm) hap .rfl
      refine ⟨rg.or (between s1 s4), ⟨h2.inv.write hc (h2.inv.tied.same rfl rfl rfl (List.prefix_refl _) rfl) rfl rfl hap
        ⟨fun _ _ h => h.elim, fun z hz he => absurd hz (Nat.not_lt.2 (he ▸ hi.2.1)), fun _ _ h => h.elim⟩, h2.maps.chg hc, ?_, ?_⟩, e1.trans (e2.trans ⟨rfl, rfl⟩), rfl⟩
      · rw [List.filter_append, props_modify hi.2.2]
        simp only [List.filter_cons, k1, Bool.not_false, if_true, List.filter_nil]
        refine Lists.snoc (Lists.mono h2.reads.props fun e x hx => PropertyReads.carry hcar hx) ⟨rfl, ?_, b, ?_, k3⟩
        · rw [k2]; exact (hcar _ _ _ (hd.mono id Region.le_right)).1
        · rw [k2]; exact hb
      · rw [List.filter_append]
        simp only [List.filter_cons, k1, Bool.false_eq_true, if_false, List.filter_nil, List.append_nil]
        exact Lists.mono h2.reads.patProps fun e x hx => PatternReads.carry hcar hx

theorem unmarshalProperties_reads {c : Calls} (hg : Good E c) {a : Addr} (ha : a < s0.bases.length) : ∀ (ns : List YNode) {rg : Region} {s s' : St}
    {f f' : ObjectF} {ps : List (String × YNode)}, ObjAt E x s0 loc rg s f ps → unmarshalProperties E c loc ns f s = (.ok f', s') →
    ∃ rg', ObjAt E x s0 loc rg' s' f' (ps ++ entriesOf ns) ∧ SameAt a s s' ∧ f' = { f with properties := f'.properties, patternProperties := f'.patternProperties }
  | [], rg, s, s', f, f', ps, h, hr => by
    obtain ⟨rfl, rfl⟩ := M.ret_ok.1 hr
    exact ⟨rg, by simpa [entriesOf] using h, ⟨rfl, rfl⟩, rfl⟩
  | [_], rg, s, s', f, f', ps, h, hr => by
    obtain ⟨rfl, rfl⟩ := M.ret_ok.1 hr
    exact ⟨rg, by simpa [entriesOf] using h, ⟨rfl, rfl⟩, rfl⟩
  | k :: v :: rest, rg, s, s', f, f', ps, h, hr => by
    obtain ⟨f1, s1, r1, r2⟩ := M.bind_ok.1 hr
    obtain ⟨rg1, h1, e1, q1⟩ := unmarshalProperty_reads hg ha h r1
    obtain ⟨rg2, h2, e2, q2⟩ := unmarshalProperties_reads hg ha rest h1 r2
    refine ⟨rg2, by simpa [entriesOf] using h2, e1.trans e2, ?_⟩
    rw [q2, q1]

/-! ## Facets -/

/-- A custom facet. -/
def CustomEntry (E : Env) (loc : String) (e : String × YNode) (x : String × GoVal) : Prop := x.1 = e.1 ∧ ValueOf E loc e.2 x.2

/-- Storing entries in order. -/
abbrev fill {α : Type} (m : OMap α) (l : List (String × α)) : OMap α := l.foldl (fun m e => OMap.set m e.1 e.2) m

/-- While the facets of the base at `a` are read: `pre` are those read so far, `m0` the custom facets at the start. -/
structure Making (E : Env) (s0 : St) (a : Addr) (loc : String) (b : Base) (m0 : OMap GoVal) (rg : Region) (s : St) (sh : Shape) (pre : List (String × YNode)) :
    Prop where
  inv : Inv E (atBase a) s0 rg s
  base : s.base a = some { b with shape := some sh }
  known : ∀ f, sh ≠ .unknown f
  maps : ∀ f, sh = .object f → OwnMaps s0 s rg f
  reads : FacetsRead E s loc (D E False rg s loc) True pre sh
  custom : ∃ l, List.Forall₂ (CustomEntry E loc) (pre.filter fun e => e.1 ∉ facetNames (Kind sh)) l ∧ s.fmaps[a]? = some (fill m0 l)

/-- After one facet of the type has been read. -/
structure Facet1 (E : Env) (s0 : St) (a : Addr) (loc : String) (s : St) (sh : Shape) (pre : List (String × YNode)) (s' : St) (sh' : Shape) (rg' : Region) : Prop where
  inv : Inv E (atBase a) s0 rg' s'
  same : SameAt a s s'
  kind : Kind sh' = Kind sh
  known : ∀ f, sh' ≠ .unknown f
  maps : ∀ f, sh' = .object f → OwnMaps s0 s' rg' f
  reads : FacetsRead E s' loc (D E False rg' s' loc) True pre sh'

theorem lift_bind_ok {α β : Type} {o : Out α} {g : α → β} {y : β} (h : (M.lift (o.bind fun x => .ok (g x)) : M St β) s = (.ok y, s')) :
    s' = s ∧ ∃ x, o = .ok x ∧ y = g x := by
  obtain ⟨h1, rfl⟩ := M.lift_ok.1 h
  obtain ⟨x, h2, h3⟩ := out_bind h1
  cases h3
  exact ⟨rfl, x, h2, rfl⟩

variable {a : Addr} {b : Base} {m0 : OMap GoVal} {sh sh' : Shape} {pre : List (String × YNode)} {k : String} {v : YNode}

theorem arrayFacet_reads {c : Calls} (hg : Good E c) (ha : a < s0.bases.length) {f f' : ArrayF} {m : M St ArrayF}
    (h : Making E s0 a loc b m0 rg s (.array f) pre) (hm : arrayFacet E c loc f k v = some m) (hr : m s = (.ok f', s')) :
    ∃ rg', Facet1 E s0 a loc s (.array f) (pre ++ [(k, v)]) s' (.array f') rg' := by
  obtain ⟨h1, h2, h3, h4⟩ := h.reads
  unfold arrayFacet at hm
  split at hm
  · next e =>
    subst e; cases hm
    obtain ⟨r1, rfl⟩ := M.lift_ok.1 hr
    obtain ⟨y, hx, hy⟩ := orErr_bind r1; cases hy
    exact ⟨rg, h.inv, ⟨rfl, rfl⟩, rfl, (by intro f; simp), (by intro f; simp),
      reads_here hx, reads_there (by decide) h2, reads_there (by decide) h3, fun ho => reads_there (by decide) (h4 ho)⟩
  split at hm
  · next e =>
    subst e; cases hm
    obtain ⟨r1, rfl⟩ := M.lift_ok.1 hr
    obtain ⟨y, hx, hy⟩ := orErr_bind r1; cases hy
    exact ⟨rg, h.inv, ⟨rfl, rfl⟩, rfl, (by intro f; simp), (by intro f; simp),
      reads_there (by decide) h1, reads_here hx, reads_there (by decide) h3, fun ho => reads_there (by decide) (h4 ho)⟩
  split at hm
  · next e =>
    subst e; cases hm
    obtain ⟨z, s1, r1, r2⟩ := M.bind_ok.1 hr
    obtain ⟨rfl, rfl⟩ := M.ret_ok.1 r2
    obtain ⟨hcall, hd⟩ := hg.shape h.inv.tied r1
    exact ⟨_, h.inv.call hcall, hcall.same h.inv.tied (Nat.lt_of_lt_of_le ha h.inv.chg.bases), rfl, (by intro f; simp), (by intro f; simp),
      reads_there (by decide) h1, reads_there (by decide) h2, reads_there (by decide) h3, fun ho => reads_here ⟨z, rfl, hd.mono id Region.le_right⟩⟩
  split at hm
  · next e =>
    subst e; cases hm
    obtain ⟨r1, rfl⟩ := M.lift_ok.1 hr
    obtain ⟨y, hx, hy⟩ := orErr_bind r1; cases hy
    exact ⟨rg, h.inv, ⟨rfl, rfl⟩, rfl, (by intro f; simp), (by intro f; simp),
      reads_there (by decide) h1, reads_there (by decide) h2, reads_here hx, fun ho => reads_there (by decide) (h4 ho)⟩
  · cases hm

theorem objectFacet_reads {c : Calls} (hg : Good E c) (ha : a < s0.bases.length) {f f' : ObjectF} {m : M St ObjectF}
    (h : Making E s0 a loc b m0 rg s (.object f) pre) (hm : objectFacet E c loc f k v = some m) (hr : m s = (.ok f', s')) :
    ∃ rg', Facet1 E s0 a loc s (.object f) (pre ++ [(k, v)]) s' (.object f') rg' := by
  obtain ⟨h1, h2, h3, h4, h5, h6⟩ := h.reads
  have hmaps := h.maps f rfl
  unfold objectFacet at hm
  split at hm
  · next e =>
    subst e; cases hm
    obtain ⟨r1, rfl⟩ := M.lift_ok.1 hr
    obtain ⟨y, hx, hy⟩ := orErr_bind r1; cases hy
    exact ⟨rg, h.inv, ⟨rfl, rfl⟩, rfl, (by intro f; simp), (by intro f e; cases e; exact hmaps),
      reads_here hx, reads_there (by decide) h2, reads_there (by decide) h3, reads_there (by decide) h4, reads_there (by decide) h5,
      by rw [allUnder_there (by decide)]; exact ⟨h6.props, h6.patProps⟩⟩
  split at hm
  · next e =>
    subst e; cases hm
    obtain ⟨r1, rfl⟩ := M.lift_ok.1 hr
    obtain ⟨y, hx, hy⟩ := orErr_bind r1; cases hy
    exact ⟨rg, h.inv, ⟨rfl, rfl⟩, rfl, (by intro f; simp), (by intro f e; cases e; exact hmaps),
      reads_there (by decide) h1, reads_here hx, reads_there (by decide) h3, reads_there (by decide) h4, reads_there (by decide) h5,
      by rw [allUnder_there (by decide)]; exact ⟨h6.props, h6.patProps⟩⟩
  split at hm
  · next e =>
    subst e; cases hm
    obtain ⟨r1, rfl⟩ := M.lift_ok.1 hr
    obtain ⟨y, hx, hy⟩ := orErr_bind r1; cases hy
    exact ⟨rg, h.inv, ⟨rfl, rfl⟩, rfl, (by intro f; simp), (by intro f e; cases e; exact hmaps),
      reads_there (by decide) h1, reads_there (by decide) h2, reads_here hx, reads_there (by decide) h4, reads_there (by decide) h5,
      by rw [allUnder_there (by decide)]; exact ⟨h6.props, h6.patProps⟩⟩
  split at hm
  · next e =>
    subst e; cases hm
    obtain ⟨r1, rfl⟩ := M.lift_ok.1 hr
    obtain ⟨y, hx, hy⟩ := orErr_bind r1; cases hy
    exact ⟨rg, h.inv, ⟨rfl, rfl⟩, rfl, (by intro f; simp), (by intro f e; cases e; exact hmaps),
      reads_there (by decide) h1, reads_there (by decide) h2, reads_there (by decide) h3, reads_here hx, reads_there (by decide) h5,
      by rw [allUnder_there (by decide)]; exact ⟨h6.props, h6.patProps⟩⟩
  split at hm
  · next e =>
    subst e; cases hm
    obtain ⟨r1, rfl⟩ := M.lift_ok.1 hr
    obtain ⟨y, hx, hy⟩ := orErr_bind r1; cases hy
    exact ⟨rg, h.inv, ⟨rfl, rfl⟩, rfl, (by intro f; simp), (by intro f e; cases e; exact hmaps),
      reads_there (by decide) h1, reads_there (by decide) h2, reads_there (by decide) h3, reads_there (by decide) h4, reads_here hx,
      by rw [allUnder_there (by decide)]; exact ⟨h6.props, h6.patProps⟩⟩
  split at hm
  · next e =>
    subst e; cases hm
    split at hr
    · cases hr
    obtain ⟨rg', k1, k2, k3⟩ := unmarshalProperties_reads hg ha v.content ⟨h.inv, hmaps, h6⟩ hr
    refine ⟨rg', k1.inv, k2, rfl, (by intro f; simp), (by intro f e; cases e; exact k1.maps), ?_⟩
    have hreads := k1.reads
    rw [k3]
    exact ⟨reads_there (by decide) h1, reads_there (by decide) h2, reads_there (by decide) h3, reads_there (by decide) h4, reads_there (by decide) h5,
      by rw [allUnder_here]; exact ⟨hreads.props, hreads.patProps⟩⟩
  · cases hm

theorem Making.pure {sh' : Shape} (h : Making E s0 a loc b m0 rg s sh pre) (hk : Kind sh' = Kind sh) (hu : ∀ f, sh' ≠ .unknown f) (ho : ∀ f, sh' ≠ .object f)
    (hr : FacetsRead E s loc (D E False rg s loc) True (pre ++ [(k, v)]) sh') : ∃ rg', Facet1 E s0 a loc s sh (pre ++ [(k, v)]) s sh' rg' :=
  ⟨rg, h.inv, ⟨rfl, rfl⟩, hk, hu, fun f e => absurd e (ho f), hr⟩

theorem shapeFacet_reads {c : Calls} (hg : Good E c) (ha : a < s0.bases.length) {m : M St Shape}
    (h : Making E s0 a loc b m0 rg s sh pre) (hm : shapeFacet E c loc sh k v = some m) (hr : m s = (.ok sh', s')) :
    ∃ rg', Facet1 E s0 a loc s sh (pre ++ [(k, v)]) s' sh' rg' := by
  unfold shapeFacet at hm
  split at hm
  · obtain ⟨o, h1, rfl⟩ := Option.map_eq_some_iff.1 hm
    obtain ⟨rfl, f', rfl, rfl⟩ := lift_bind_ok hr
    exact h.pure rfl (by intro; simp) (by intro; simp) (integerFacet_reads h1 h.reads)
  · obtain ⟨o, h1, rfl⟩ := Option.map_eq_some_iff.1 hm
    obtain ⟨rfl, f', rfl, rfl⟩ := lift_bind_ok hr
    exact h.pure rfl (by intro; simp) (by intro; simp) (numberFacet_reads h1 h.reads)
  · obtain ⟨o, h1, rfl⟩ := Option.map_eq_some_iff.1 hm
    obtain ⟨rfl, f', rfl, rfl⟩ := lift_bind_ok hr
    exact h.pure rfl (by intro; simp) (by intro; simp) (stringFacet_reads h1 h.reads)
  · obtain ⟨o, h1, rfl⟩ := Option.map_eq_some_iff.1 hm
    obtain ⟨rfl, f', rfl, rfl⟩ := lift_bind_ok hr
    exact h.pure rfl (by intro; simp) (by intro; simp) (fileFacet_reads h1 h.reads)
  · split at hm
    · next e =>
      subst e; cases hm
      obtain ⟨rfl, f', h1, rfl⟩ := lift_bind_ok hr
      exact h.pure rfl (by intro; simp) (by intro; simp) (reads_here (makeEnum_reads h1))
    · cases hm
  · split at hm
    · next e =>
      subst e; cases hm
      obtain ⟨r1, rfl⟩ := M.lift_ok.1 hr
      split at r1
      · cases r1
      obtain ⟨y, hx, hy⟩ := orErr_bind r1; cases hy
      exact h.pure rfl (by intro; simp) (by intro; simp) (reads_here (read := fun v x => E.decodeStr v = some x) hx)
    · cases hm
  · obtain ⟨o, h1, rfl⟩ := Option.map_eq_some_iff.1 hm
    obtain ⟨f', s1, h2, h3⟩ := M.bind_ok.1 hr
    obtain ⟨rfl, rfl⟩ := M.ret_ok.1 h3
    exact arrayFacet_reads hg ha h h1 h2
  · obtain ⟨o, h1, rfl⟩ := Option.map_eq_some_iff.1 hm
    obtain ⟨f', s1, h2, h3⟩ := M.bind_ok.1 hr
    obtain ⟨rfl, rfl⟩ := M.ret_ok.1 h3
    exact objectFacet_reads hg ha h h1 h2
  · cases hm

theorem not_in_region (ha : a < s0.bases.length) (hl : rg.Le (between s0 s)) : rg.Apart (atBase a) :=
  ⟨fun z hz he => absurd ha (Nat.not_lt.2 (he ▸ (hl.b z hz).1)), fun _ _ h => h, fun _ _ h => h⟩

theorem fmap_modify {g : OMap GoVal → OMap GoVal} {m : OMap GoVal} (h : s.fmaps[a]? = some m) : (s.fmaps.modify a g)[a]? = some (g m) := by simp [h]

theorem unmarshalFacet_reads {c : Calls} (hg : Good E c) (ha : a < s0.bases.length) (hb : b.facets = some a) (h : Making E s0 a loc b m0 rg s sh pre)
    (hr : unmarshalFacet E c a loc sh k v s = (.ok sh', s')) :
    ∃ rg', Making E s0 a loc b m0 rg' s' sh' (pre ++ [(k, v)]) ∧ Kind sh' = Kind sh := by
  unfold unmarshalFacet at hr
  cases hm : shapeFacet E c loc sh k v with
  | some m =>
    rw [hm] at hr
    obtain ⟨sh1, s1, r1, r2⟩ := M.bind_ok.1 hr
    obtain ⟨_, s2, r3, r4⟩ := M.bind_ok.1 r2
    obtain ⟨rfl, rfl⟩ := M.ret_ok.1 r4
    obtain ⟨rg', h1⟩ := shapeFacet_reads hg ha h hm r1
    have hb1 : s1.base a = some { b with shape := some sh } := h1.same.base.trans h.base
    unfold setShape Heap.updBase at r3
    cases r3
    have hap := not_in_region (s0 := s0) ha h1.inv.le
    have hc := chg_updBase (s := s1) a fun b => { b with shape := some sh1 }
    refine ⟨rg', ⟨h1.inv.write hc (h1.inv.tied.updBase fun b0 _ => ⟨rfl, fun hu => ?_⟩) rfl rfl hap (Region.Le.rfl.on _), ?_, h1.known, fun f hf => (h1.maps f hf).chg hc, ?_, ?_⟩,
      h1.kind⟩
    · obtain ⟨f, hf⟩ := hu; exact absurd (Option.some.inj hf) (h1.known f)
    · rw [base_modify_eq hb1]
    · exact FacetsRead.carry (chg_carry hc (Nat.le_of_eq h1.inv.tied.len.symm) hap .rfl) (fun f hf => ⟨rfl, rfl⟩) h1.reads
    · obtain ⟨l, h2, h3⟩ := h.custom
      refine ⟨l, ?_, h1.same.fmap.trans h3⟩
      rw [h1.kind, List.filter_append]
      simpa [shapeFacet_some hm] using h2
  | none =>
    rw [hm] at hr
    obtain ⟨u, s1, r1, r2⟩ := M.bind_ok.1 hr
    obtain ⟨rfl, rfl⟩ := M.ret_ok.1 r2
    unfold customFacet at r1
    obtain ⟨n, s2, r3, r4⟩ := M.bind_ok.1 r1
    obtain ⟨r5, rfl⟩ := M.lift_ok.1 r3
    obtain ⟨b1, s3, r6, r7⟩ := M.bind_ok.1 r4
    obtain ⟨rfl, hb1⟩ := getBase_ok r6
    rw [h.base] at hb1; cases hb1
    simp only [hb] at r7
    unfold Heap.setFacet at r7
    cases r7
    have hap := not_in_region (s0 := s0) ha h.inv.le
    have hc := chg_setFacet (s := s3) a fun m => OMap.set m k n
    refine ⟨rg, ⟨h.inv.write hc (h.inv.tied.setFacet fun b0 hb0 hu => ?_) rfl rfl hap (Region.Le.rfl.on _), h.base, h.known, fun f hf => (h.maps f hf).chg hc, ?_, ?_⟩, rfl⟩
    · rw [h.base] at hb0; cases hb0
      obtain ⟨f, hf⟩ := hu; exact absurd (Option.some.inj hf) (h.known f)
    · exact FacetsRead.skip (shapeFacet_none hm) (FacetsRead.carry (chg_carry hc (Nat.le_of_eq h.inv.tied.len.symm) hap .rfl) (fun f hf => ⟨rfl, rfl⟩) h.reads)
    · obtain ⟨l, h2, h3⟩ := h.custom
      refine ⟨l ++ [(k, n)], ?_, ?_⟩
      · rw [List.filter_append]
        simp only [List.filter_cons, shapeFacet_none hm, not_false_eq_true, decide_true, if_true, List.filter_nil]
        exact forall₂_snoc h2 ⟨rfl, r5⟩
      · rw [fmap_modify h3]; simp [fill]

theorem unmarshalFacets_reads {c : Calls} (hg : Good E c) (ha : a < s0.bases.length) (hb : b.facets = some a) : ∀ (ns : List YNode) {rg : Region} {s s' : St}
    {sh : Shape} {pre : List (String × YNode)}, Making E s0 a loc b m0 rg s sh pre → unmarshalFacets E c a loc ns sh s = (.ok (), s') →
    ∃ rg' sh', Making E s0 a loc b m0 rg' s' sh' (pre ++ entriesOf ns) ∧ Kind sh' = Kind sh
  | [], rg, s, s', sh, pre, h, hr => by
    obtain ⟨_, rfl⟩ := M.ret_ok.1 hr
    exact ⟨rg, sh, by simpa [entriesOf] using h, rfl⟩
  | [_], rg, s, s', sh, pre, h, hr => by
    obtain ⟨_, rfl⟩ := M.ret_ok.1 hr
    exact ⟨rg, sh, by simpa [entriesOf] using h, rfl⟩
  | k :: v :: rest, rg, s, s', sh, pre, h, hr => by
    obtain ⟨f1, s1, r1, r2⟩ := M.bind_ok.1 hr
    obtain ⟨rg1, h1, q1⟩ := unmarshalFacet_reads hg ha hb h r1
    obtain ⟨rg2, sh2, h2, q2⟩ := unmarshalFacets_reads hg ha hb rest h1 r2
    exact ⟨rg2, sh2, by simpa [entriesOf] using h2, q2.trans q1⟩

end

end GoRaml.Read
