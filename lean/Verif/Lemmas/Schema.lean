import Mathlib.Data.List.Forall2
import Verif.Model.Schema
import Verif.Spec.Schema
import Verif.Lemmas.Monad
import Verif.Lemmas.OMap
import Verif.Lemmas.Node
import Verif.Lemmas.Validate

/-!
# One level of JSON Schema conversion
-/

namespace GoRaml

open Spec

/-- The keys of the definitions. -/
abbrev Defs.keys (D : Defs) : List String := D.map (·.1)

theorem Defs.mem_keys {D : Defs} {k : String} : k ∈ D.keys ↔ ∃ x, OMap.get D k = some x := by
  constructor
  · intro hk
    cases hg : OMap.get D k with
    | some x => exact ⟨x, rfl⟩
    | none =>
      obtain ⟨q, hq, rfl⟩ := List.mem_map.1 hk
      exact absurd rfl ((OMap.get_none_iff D q.1).1 hg q hq)
  · rintro ⟨x, hx⟩
    by_contra hk
    have : OMap.get D k = none := (OMap.get_none_iff D k).2 fun q hq e => hk (List.mem_map.2 ⟨q, hq, e⟩)
    rw [this] at hx; cases hx

/-- Old definitions are kept; new ones are made from types that get definitions. -/
structure DefsGrow (h : St) (a0 : Addr) (P : List String → Option JS → Addr → Prop) (D D' : Defs) : Prop where
  old : ∀ k x, OMap.get D k = some x → OMap.get D' k = some x
  new : ∀ k x, OMap.get D' k = some x → OMap.get D k = none →
    ∃ hd b, DefinedBy h a0 hd ∧ h.base hd = some b ∧ b.name = k ∧ P D'.keys x hd
  nodup : D.keys.Nodup → D'.keys.Nodup

theorem Defs.nodup_set {D : Defs} (hn : D.keys.Nodup) (k : String) (x : Option JS) : (Defs.keys (OMap.set D k x)).Nodup := by
  show ((OMap.set D k x).map (·.1)).Nodup
  rw [OMap.keys_set]
  split
  · exact hn
  · next hk => exact List.nodup_append.2 ⟨hn, by simp, fun a ha b hb => by simp at hb; subst hb; rintro rfl; exact hk ha⟩

/-- More keys do no harm. -/
def KeyMono (P : List String → Option JS → Addr → Prop) : Prop := ∀ K K' r y, K ⊆ K' → P K r y → P K' r y

theorem DefsGrow.refl {h : St} {a0 : Addr} {P : List String → Option JS → Addr → Prop} (D : Defs) : DefsGrow h a0 P D D :=
  ⟨fun _ _ hx => hx, fun k x hx hn => (by rw [hn] at hx; cases hx), id⟩

theorem DefsGrow.keys {h : St} {a0 : Addr} {P : List String → Option JS → Addr → Prop} {D D' : Defs} (g : DefsGrow h a0 P D D') :
    D.keys ⊆ D'.keys := by
  intro k hk
  obtain ⟨x, hx⟩ := Defs.mem_keys.1 hk
  exact Defs.mem_keys.2 ⟨x, g.old k x hx⟩

theorem DefsGrow.trans {h : St} {a0 : Addr} {P : List String → Option JS → Addr → Prop} (hm : KeyMono P) {D D' D'' : Defs}
    (g : DefsGrow h a0 P D D') (g' : DefsGrow h a0 P D' D'') : DefsGrow h a0 P D D'' := by
  refine ⟨fun k x hx => g'.old k x (g.old k x hx), fun k x hx hn => ?_, fun hn => g'.nodup (g.nodup hn)⟩
  cases hk : OMap.get D' k with
  | none => exact g'.new k x hx hk
  | some x' =>
    have := g'.old k x' hk
    rw [hx] at this
    cases this
    obtain ⟨hd, b, h1, h2, h3, h4⟩ := g.new k x hk hn
    exact ⟨hd, b, h1, h2, h3, hm _ _ _ _ g'.keys h4⟩

/-- What the recursive calls do. -/
def VisitOK (h : St) (a0 : Addr) (P : List String → Option JS → Addr → Prop) (rec : Addr → M Defs (Option JS)) : Prop :=
  ∀ y r D D', SchemaReach h a0 y → rec y D = (.ok r, D') → DefsGrow h a0 P D D' ∧ P D'.keys r y

section
variable {h : St} {a0 : Addr} {P : List String → Option JS → Addr → Prop} {rec : Addr → M Defs (Option JS)}

theorem collect_grow {α β : Type} (hm : KeyMono P) {f : α → M Defs β} {R : List String → α → β → Prop}
    (hR : ∀ K K' x y, K ⊆ K' → R K x y → R K' x y) :
    ∀ (l : List α), (∀ x ∈ l, ∀ r D D', f x D = (.ok r, D') → DefsGrow h a0 P D D' ∧ R D'.keys x r) →
    ∀ (ys : List β) (D D' : Defs), M.collect f l D = (.ok ys, D') → DefsGrow h a0 P D D' ∧ List.Forall₂ (R D'.keys) l ys := by
  intro l
  induction l with
  | nil =>
    intro _ ys D D' hc
    obtain ⟨rfl, rfl⟩ := M.ret_ok.1 hc
    exact ⟨.refl _, .nil⟩
  | cons x l ih =>
    intro hf ys D D' hc
    obtain ⟨y, D1, h1, h2⟩ := M.bind_ok.1 hc
    obtain ⟨ys', D2, h3, h4⟩ := M.bind_ok.1 h2
    obtain ⟨rfl, rfl⟩ := M.ret_ok.1 h4
    obtain ⟨g1, r1⟩ := hf x (by simp) y D D1 h1
    obtain ⟨g2, r2⟩ := ih (fun z hz => hf z (by simp [hz])) ys' D1 D2 h3
    exact ⟨g1.trans hm g2, .cons (hR _ _ _ _ g2.keys r1) r2⟩

theorem visitEntry_grow (hr : VisitOK h a0 P rec) {ka : String × Addr} (hy : SchemaReach h a0 ka.2) {r : String × Option JS} {D D' : Defs}
    (hv : visitEntry rec ka D = (.ok r, D')) : DefsGrow h a0 P D D' ∧ r.1 = ka.1 ∧ P D'.keys r.2 ka.2 := by
  obtain ⟨s, D1, h1, h2⟩ := M.bind_ok.1 hv
  obtain ⟨rfl, rfl⟩ := M.ret_ok.1 h2
  obtain ⟨g, p⟩ := hr _ _ _ _ hy h1
  exact ⟨g, rfl, p⟩

/-- The entries of a map of schemas, made from the entries of a map of types. -/
def EntriesFor (P : Option JS → Addr → Prop) (l : List (String × Addr)) (m : List (String × Option JS)) : Prop :=
  List.Forall₂ (fun e q => q.1 = e.1 ∧ P q.2 e.2) l m

theorem entries_grow (hm : KeyMono P) (hr : VisitOK h a0 P rec) {l : List (String × Addr)} (hl : ∀ e ∈ l, SchemaReach h a0 e.2)
    {m : List (String × Option JS)} {D D' : Defs} (hv : M.collect (visitEntry rec) l D = (.ok m, D')) :
    DefsGrow h a0 P D D' ∧ EntriesFor (P D'.keys) l m :=
  collect_grow hm (R := fun K (e : String × Addr) (q : String × Option JS) => q.1 = e.1 ∧ P K q.2 e.2) (fun K K' x y hK hx => ⟨hx.1, hm K K' y.2 x.2 hK hx.2⟩) l
    (fun e he r D D' hv => visitEntry_grow hr (hl e he) hv) m D D' hv

/-- The keywords that come from the base shape. -/
def NodeOf (w : Wrap) (h : St) (P : Option JS → Addr → Prop) (b : Base) (x : JS) : Prop :=
  (w = .plain ∧ x = { core := baseCore b }) ∨
  (w = .raml ∧ ∃ fds, EntriesFor P ((h.props b.facetDefs).map fun e => (e.1, e.2.base)) fds ∧ x =
    { core := baseCore b
      annotations := if b.domainProps = [] then none else
        some (b.domainProps.map fun e => (e.1, ((h.domainExts[e.2]?).map (·.value)).getD .nil))
      facetDefinitions := if fds = [] then none else some fds
      facetData := if h.facetMap b.facets = [] then none else some (h.facetMap b.facets) })

theorem EntriesFor.mono {P Q : Option JS → Addr → Prop} (hpq : ∀ r y, P r y → Q r y) {l : List (String × Addr)}
    {m : List (String × Option JS)} (hl : EntriesFor P l m) : EntriesFor Q l m :=
  List.Forall₂.imp (fun _ _ hx => ⟨hx.1, hpq _ _ hx.2⟩) hl

theorem NodeOf.mono {w : Wrap} {P Q : Option JS → Addr → Prop} (hpq : ∀ r y, P r y → Q r y) {b : Base} {x : JS}
    (hx : NodeOf w h P b x) : NodeOf w h Q b x := by
  rcases hx with hx | ⟨h1, fds, h2, h3⟩
  · exact Or.inl hx
  · exact Or.inr ⟨h1, fds, h2.mono hpq, h3⟩

theorem makeSchema_grow (hm : KeyMono P) (hr : VisitOK h a0 P rec) {w : Wrap} {b : Base}
    (hf : ∀ e ∈ h.props b.facetDefs, SchemaReach h a0 e.2.base) {x : JS} {D D' : Defs}
    (hv : makeSchema w rec h b D = (.ok x, D')) : DefsGrow h a0 P D D' ∧ NodeOf w h (P D'.keys) b x := by
  cases w with
  | unset => cases hv
  | plain =>
    obtain ⟨rfl, rfl⟩ := M.ret_ok.1 hv
    exact ⟨.refl _, Or.inl ⟨rfl, rfl⟩⟩
  | raml =>
    obtain ⟨fds, D1, h1, h2⟩ := M.bind_ok.1 hv
    obtain ⟨rfl, rfl⟩ := M.ret_ok.1 h2
    obtain ⟨g, e⟩ := entries_grow hm hr (by
      intro e he
      obtain ⟨p, hp, rfl⟩ := List.mem_map.1 he
      exact hf p hp) h1
    exact ⟨g, Or.inr ⟨rfl, fds, e, rfl⟩⟩

/-- One entry of the pattern properties: the key without its delimiters. -/
def PatternFor (P : Option JS → Addr → Prop) (e : String × PatternProperty) (q : String × Option JS) : Prop :=
  trimSlashes e.1 = .ok q.1 ∧ P q.2 e.2.base

/-- The keywords an object type adds. -/
def objectSchema (h : St) (x : JS) (f : ObjectF) (ps pps : Option (List (String × Option JS))) : JS :=
  { x with
    core := { x.core with
      type := "object"
      minProperties := f.minProperties
      maxProperties := f.maxProperties
      additionalProperties := f.additionalProperties
      required := ((h.props f.properties).filter fun e => e.2.required).map (·.1) }
    properties := ps
    patternProperties := pps }

/-- The keywords an array type adds. -/
def arraySchema (x : JS) (f : ArrayF) (it : Option JS) : JS :=
  { x with
    core := { x.core with
      type := "array", minItems := f.minItems, maxItems := f.maxItems, uniqueItems := f.uniqueItems }
    items := it }

/-- The schema of a type, given the schemas of the types next to it. -/
def Level (w : Wrap) (h : St) (P : Option JS → Addr → Prop) (K : List String) (b : Base) (s : Option Shape) (r : Option JS) : Prop :=
  match s with
  | some (.recursive hd) => ∃ b', h.base hd = some b' ∧ b'.name ∈ K ∧ r = some { core := { ref := refTo b'.name } }
  | some (.unknown _) => r = none
  | none => r = none
  | some (.object f) => ∃ x ps pps, NodeOf w h P b x ∧ r = some (objectSchema h x f ps pps) ∧
      (f.properties = none → ps = none) ∧
      (f.properties ≠ none → ∃ l, ps = some l ∧ EntriesFor P ((h.props f.properties).map fun e => (e.1, e.2.base)) l) ∧
      (f.patternProperties = none → pps = none) ∧
      (f.patternProperties ≠ none → ∃ l, pps = some l ∧ List.Forall₂ (PatternFor P) (h.patProps f.patternProperties) l)
  | some (.array f) => ∃ x it, NodeOf w h P b x ∧ r = some (arraySchema x f it) ∧
      (f.items = none → it = none) ∧ (∀ i, f.items = some i → P it i)
  | some (.union m _) => ∃ x l, NodeOf w h P b x ∧ r = some { x with anyOf := l } ∧ List.Forall₂ (fun y q => P q y) (h.slice m) l
  | some (.string f) => ∃ x, NodeOf w h P b x ∧ r = some (stringSchema x f)
  | some (.number f) => ∃ x, NodeOf w h P b x ∧ r = some (numberSchema x f)
  | some (.integer f) => ∃ x, NodeOf w h P b x ∧ r = some (integerSchema x f)
  | some (.boolean e) => ∃ x, NodeOf w h P b x ∧ r = some (booleanSchema x e)
  | some (.file f) => ∃ x y, NodeOf w h P b x ∧ fileSchema x f = .ok y ∧ r = some y
  | some .nil => ∃ x, NodeOf w h P b x ∧ r = some { x with core := { x.core with type := "null" } }
  | some .any => NodeOf w h P b (r.getD {}) ∧ r ≠ none
  | some (.datetime f) => ∃ x, NodeOf w h P b x ∧ r = some (datetimeSchema x f)
  | some .datetimeOnly => ∃ x, NodeOf w h P b x ∧ r = some (datetimeOnlySchema x)
  | some .dateOnly => ∃ x, NodeOf w h P b x ∧ r = some { x with core := { x.core with type := "string", format := "date" } }
  | some .timeOnly => ∃ x, NodeOf w h P b x ∧ r = some { x with core := { x.core with type := "string", format := "time" } }
  | some (.json _ sc) => ∃ x y, NodeOf w h P b x ∧ jsonShapeSchema x sc = .ok y ∧ r = some y

theorem visitObject_grow (hm : KeyMono P) (hr : VisitOK h a0 P rec) {f : ObjectF} {x y : JS}
    (hp : ∀ e ∈ h.props f.properties, SchemaReach h a0 e.2.base) (hpp : ∀ e ∈ h.patProps f.patternProperties, SchemaReach h a0 e.2.base)
    {D D' : Defs} (hv : visitObject rec h x f D = (.ok y, D')) :
    DefsGrow h a0 P D D' ∧ ∃ ps pps, y = objectSchema h x f ps pps ∧
      (f.properties = none → ps = none) ∧
      (f.properties ≠ none → ∃ l, ps = some l ∧ EntriesFor (P D'.keys) ((h.props f.properties).map fun e => (e.1, e.2.base)) l) ∧
      (f.patternProperties = none → pps = none) ∧
      (f.patternProperties ≠ none → ∃ l, pps = some l ∧ List.Forall₂ (PatternFor (P D'.keys)) (h.patProps f.patternProperties) l) := by
  obtain ⟨ps, D1, h1, h2⟩ := M.bind_ok.1 hv
  obtain ⟨pps, D2, h3, h4⟩ := M.bind_ok.1 h2
  obtain ⟨rfl, rfl⟩ := M.ret_ok.1 h4
  have r1 : DefsGrow h a0 P D D1 ∧ (f.properties = none → ps = none) ∧
      (f.properties ≠ none → ∃ l, ps = some l ∧ EntriesFor (P D1.keys) ((h.props f.properties).map fun e => (e.1, e.2.base)) l) := by
    cases hfp : f.properties with
    | none =>
      rw [hfp] at h1
      obtain ⟨rfl, rfl⟩ := M.ret_ok.1 h1
      exact ⟨.refl _, fun _ => rfl, fun hc => absurd rfl hc⟩
    | some i =>
      rw [hfp] at h1
      obtain ⟨l, D3, h5, h6⟩ := M.bind_ok.1 h1
      obtain ⟨rfl, rfl⟩ := M.ret_ok.1 h6
      obtain ⟨g, e⟩ := entries_grow hm hr (by
        intro e he
        obtain ⟨p, hp', rfl⟩ := List.mem_map.1 he
        exact hp p (by rw [hfp]; exact hp')) h5
      exact ⟨g, fun hc => (by cases hc), fun _ => ⟨l, rfl, e⟩⟩
  have r2 : DefsGrow h a0 P D1 D2 ∧ (f.patternProperties = none → pps = none) ∧
      (f.patternProperties ≠ none → ∃ l, pps = some l ∧ List.Forall₂ (PatternFor (P D2.keys)) (h.patProps f.patternProperties) l) := by
    cases hfp : f.patternProperties with
    | none =>
      rw [hfp] at h3
      obtain ⟨rfl, rfl⟩ := M.ret_ok.1 h3
      exact ⟨.refl _, fun _ => rfl, fun hc => absurd rfl hc⟩
    | some i =>
      rw [hfp] at h3
      obtain ⟨l, D3, h5, h6⟩ := M.bind_ok.1 h3
      obtain ⟨rfl, rfl⟩ := M.ret_ok.1 h6
      obtain ⟨g, e⟩ := collect_grow hm (R := fun K e q => PatternFor (P K) e q) (fun K K' _ _ hK hx => ⟨hx.1, hm _ _ _ _ hK hx.2⟩) _
        (by
          intro e he r E E' hv
          obtain ⟨k, E1, h7, h8⟩ := M.bind_ok.1 hv
          obtain ⟨h9, rfl⟩ := M.lift_ok.1 h7
          obtain ⟨g, e1, e2⟩ := visitEntry_grow hr (ka := (k, e.2.base)) (hpp e (by rw [hfp]; exact he)) h8
          exact ⟨g, by rw [h9, e1], e2⟩) l D1 D3 h5
      exact ⟨g, fun hc => (by cases hc), fun _ => ⟨l, rfl, e⟩⟩
  refine ⟨r1.1.trans hm r2.1, ps, pps, rfl, r1.2.1, ?_, r2.2⟩
  intro hc
  obtain ⟨l, e1, e2⟩ := r1.2.2 hc
  exact ⟨l, e1, e2.mono fun r y hp => hm _ _ _ _ r2.1.keys hp⟩

theorem Spec.SchemaReach.trans {a b c : Addr} (h1 : SchemaReach h a b) (h2 : SchemaReach h b c) : SchemaReach h a c := by
  induction h1 with
  | refl _ => exact h2
  | component c _ ih => exact .component c (ih h2)
  | head c _ ih => exact .head c (ih h2)

theorem visitRecursive_grow (hm : KeyMono P) (hr : VisitOK h a0 P rec) {w : Wrap} {hd y : Addr} {x : JS}
    (hy : SchemaReach h a0 y) (hs : h.shapeAt y = some (.recursive hd)) {D D' : Defs}
    (hv : visitRecursive w rec h hd D = (.ok x, D')) :
    DefsGrow h a0 P D D' ∧ ∃ b', h.base hd = some b' ∧ b'.name ∈ D'.keys ∧ x = { core := { ref := refTo b'.name } } := by
  have hhd : SchemaReach h a0 hd := hy.trans (.head hs (.refl _))
  obtain ⟨node, D1, h1, h2⟩ := M.bind_ok.1 hv
  have hn : node = {} ∧ D = D1 := by
    cases w with
    | unset => cases h1
    | plain => obtain ⟨rfl, rfl⟩ := M.ret_ok.1 h1; exact ⟨rfl, rfl⟩
    | raml => obtain ⟨rfl, rfl⟩ := M.ret_ok.1 h1; exact ⟨rfl, rfl⟩
  obtain ⟨rfl, rfl⟩ := hn
  cases hb : h.base hd with
  | none => rw [hb] at h2; cases h2
  | some b =>
    rw [hb] at h2
    dsimp only at h2
    split at h2
    · cases h2
    · obtain ⟨D0, D1, h3, h4⟩ := M.bind_ok.1 h2
      obtain ⟨e1, e2⟩ := M.get_ok.1 h3
      subst e2
      subst e1
      obtain ⟨_, D2, h5, h6⟩ := M.bind_ok.1 h4
      obtain ⟨rfl, rfl⟩ := M.ret_ok.1 h6
      by_cases hdef : (OMap.get D0 b.name).isSome
      · rw [if_pos hdef] at h5
        obtain ⟨-, rfl⟩ := M.ret_ok.1 h5
        obtain ⟨v, hv⟩ := Option.isSome_iff_exists.1 hdef
        exact ⟨.refl _, b, rfl, Defs.mem_keys.2 ⟨v, hv⟩, rfl⟩
      · rw [if_neg hdef] at h5
        have hnone : OMap.get D0 b.name = none := by
          cases hg : OMap.get D0 b.name with
          | none => rfl
          | some v => exact absurd (by rw [hg]; rfl) hdef
        obtain ⟨_, D3, h7, h8⟩ := M.bind_ok.1 h5
        cases h7
        obtain ⟨s, D4, h9, h10⟩ := M.bind_ok.1 h8
        cases h10
        obtain ⟨g, p⟩ := hr _ _ _ _ hhd h9
        have hk4 : OMap.get D4 b.name = some none := g.old _ _ (by rw [OMap.get_set, if_pos rfl])
        have hkeys : Defs.keys (OMap.set D4 b.name s) = D4.keys := by
          show (OMap.set D4 b.name s).map (·.1) = _
          rw [OMap.keys_set, if_pos (Defs.mem_keys.2 ⟨_, hk4⟩)]
        refine ⟨⟨?_, ?_, fun hn => Defs.nodup_set (g.nodup (Defs.nodup_set hn _ _)) _ _⟩, b, rfl, ?_, rfl⟩
        · intro k v hk
          have hne : k ≠ b.name := by rintro rfl; rw [hnone] at hk; cases hk
          rw [OMap.get_set, if_neg hne]
          exact g.old k v (by rw [OMap.get_set, if_neg hne]; exact hk)
        · intro k v hk hn
          rw [OMap.get_set] at hk
          by_cases hne : k = b.name
          · rw [if_pos hne] at hk
            cases hk
            exact ⟨hd, b, Or.inr ⟨y, hy, hs⟩, hb, hne.symm, by rw [hkeys]; exact p⟩
          · rw [if_neg hne] at hk
            obtain ⟨hd', b', q1, q2, q3, q4⟩ := g.new k v hk (by rw [OMap.get_set, if_neg hne]; exact hn)
            exact ⟨hd', b', q1, q2, q3, by rw [hkeys]; exact q4⟩
        · rw [hkeys]; exact Defs.mem_keys.2 ⟨_, hk4⟩

/-- One level of the conversion, given what the recursive calls do. -/
theorem visitShape_level (hm : KeyMono P) (hr : VisitOK h a0 P rec) {w : Wrap} {y : Addr} {b : Base} (hy : SchemaReach h a0 y)
    (hb : h.base y = some b) {r : Option JS} {D D' : Defs} (hv : visitShape w rec h b b.shape D = (.ok r, D')) :
    DefsGrow h a0 P D D' ∧ Level w h (P D'.keys) D'.keys b b.shape r := by
  have hf : ∀ e ∈ h.props b.facetDefs, SchemaReach h a0 e.2.base := fun e he =>
    hy.trans (.component ⟨b, hb, Or.inr ⟨e, he, rfl⟩⟩ (.refl _))
  have hedge : ∀ s z, b.shape = some s → ShapeEdge h s z → SchemaReach h a0 z := fun s z hs he =>
    hy.trans (.component ⟨b, hb, Or.inl ⟨s, hs, he⟩⟩ (.refl _))
  have hsa : ∀ s, b.shape = some s → h.shapeAt y = some s := fun s hs => by
    simp only [St.shapeAt, hb, Option.bind_some]; exact hs
  have hnode : ∀ {x : JS} {D D' : Defs}, makeSchema w rec h b D = (.ok x, D') → DefsGrow h a0 P D D' ∧ NodeOf w h (P D'.keys) b x :=
    fun hx => makeSchema_grow hm hr hf hx
  have hpure : ∀ {g : JS → JS} {r : Option JS} {D D' : Defs}, (makeSchema w rec h b).bind (fun x => M.ret (some (g x))) D = (.ok r, D') →
      DefsGrow h a0 P D D' ∧ ∃ x, NodeOf w h (P D'.keys) b x ∧ r = some (g x) := by
    intro g r D D' hx
    obtain ⟨x, D1, h1, h2⟩ := M.bind_ok.1 hx
    obtain ⟨rfl, rfl⟩ := M.ret_ok.1 h2
    exact ⟨(hnode h1).1, x, (hnode h1).2, rfl⟩
  have hlift : ∀ {g : JS → Out JS} {r : Option JS} {D D' : Defs},
      (makeSchema w rec h b).bind (fun x => M.bind (M.lift (g x)) fun y => M.ret (some y)) D = (.ok r, D') →
      DefsGrow h a0 P D D' ∧ ∃ x y, NodeOf w h (P D'.keys) b x ∧ g x = .ok y ∧ r = some y := by
    intro g r D D' hx
    obtain ⟨x, D1, h1, h2⟩ := M.bind_ok.1 hx
    obtain ⟨y, D2, h3, h4⟩ := M.bind_ok.1 h2
    obtain ⟨h5, rfl⟩ := M.lift_ok.1 h3
    obtain ⟨rfl, rfl⟩ := M.ret_ok.1 h4
    exact ⟨(hnode h1).1, x, y, (hnode h1).2, h5, rfl⟩
  cases hs : b.shape with
  | none =>
    rw [hs] at hv
    obtain ⟨rfl, rfl⟩ := M.ret_ok.1 hv
    exact ⟨.refl _, rfl⟩
  | some s =>
    rw [hs] at hv
    cases s with
    | unknown f =>
      obtain ⟨rfl, rfl⟩ := M.ret_ok.1 hv
      exact ⟨.refl _, rfl⟩
    | recursive hd =>
      obtain ⟨x, D1, h1, h2⟩ := M.bind_ok.1 hv
      obtain ⟨rfl, rfl⟩ := M.ret_ok.1 h2
      obtain ⟨g, b', e1, e2, rfl⟩ := visitRecursive_grow hm hr hy (hsa _ hs) h1
      exact ⟨g, b', e1, e2, rfl⟩
    | object f =>
      obtain ⟨x, D1, h1, h2⟩ := M.bind_ok.1 hv
      obtain ⟨z, D2, h3, h4⟩ := M.bind_ok.1 h2
      obtain ⟨rfl, rfl⟩ := M.ret_ok.1 h4
      obtain ⟨g, ps, pps, rfl, e⟩ := visitObject_grow hm hr
        (fun e he => hedge _ _ hs (.property he)) (fun e he => hedge _ _ hs (.pattern he)) h3
      exact ⟨(hnode h1).1.trans hm g, x, ps, pps, (hnode h1).2.mono fun _ _ hp => hm _ _ _ _ g.keys hp, rfl, e⟩
    | array f =>
      obtain ⟨x, D1, h1, h2⟩ := M.bind_ok.1 hv
      obtain ⟨z, D2, h3, h4⟩ := M.bind_ok.1 h2
      obtain ⟨rfl, rfl⟩ := M.ret_ok.1 h4
      obtain ⟨it, D3, h5, h6⟩ := M.bind_ok.1 h3
      obtain ⟨rfl, rfl⟩ := M.ret_ok.1 h6
      cases hi : f.items with
      | none =>
        rw [hi] at h5
        obtain ⟨rfl, rfl⟩ := M.ret_ok.1 h5
        exact ⟨(hnode h1).1, x, none, (hnode h1).2, rfl, fun _ => rfl, fun i hc => by rw [hi] at hc; cases hc⟩
      | some i =>
        rw [hi] at h5
        obtain ⟨g, p⟩ := hr _ _ _ _ (hedge _ _ hs (.items hi)) h5
        exact ⟨(hnode h1).1.trans hm g, x, it, (hnode h1).2.mono fun _ _ hp => hm _ _ _ _ g.keys hp, rfl,
          fun hc => (by rw [hi] at hc; cases hc), fun j hj => by rw [hi] at hj; cases hj; exact p⟩
    | union m e =>
      obtain ⟨x, D1, h1, h2⟩ := M.bind_ok.1 hv
      obtain ⟨z, D2, h3, h4⟩ := M.bind_ok.1 h2
      obtain ⟨rfl, rfl⟩ := M.ret_ok.1 h4
      obtain ⟨l, D3, h5, h6⟩ := M.bind_ok.1 h3
      obtain ⟨rfl, rfl⟩ := M.ret_ok.1 h6
      obtain ⟨g, p⟩ := collect_grow hm (R := fun K y q => P K q y) (fun K K' _ _ hK hx => hm _ _ _ _ hK hx) _
        (fun z hz r E E' hv => hr _ _ _ _ (hedge _ _ hs (.member hz)) hv) l D1 D3 h5
      exact ⟨(hnode h1).1.trans hm g, x, l, (hnode h1).2.mono fun _ _ hp => hm _ _ _ _ g.keys hp, rfl, p⟩
    | any =>
      obtain ⟨g, x, e, rfl⟩ := hpure (g := id) hv
      exact ⟨g, e, by simp⟩
    | nil => exact hpure (g := fun x => { x with core := { x.core with type := "null" } }) hv
    | string f => exact hpure (g := fun x => stringSchema x f) hv
    | integer f => exact hpure (g := fun x => integerSchema x f) hv
    | number f => exact hpure (g := fun x => numberSchema x f) hv
    | datetime f => exact hpure (g := fun x => datetimeSchema x f) hv
    | datetimeOnly => exact hpure (g := fun x => datetimeOnlySchema x) hv
    | dateOnly => exact hpure (g := fun x => { x with core := { x.core with type := "string", format := "date" } }) hv
    | timeOnly => exact hpure (g := fun x => { x with core := { x.core with type := "string", format := "time" } }) hv
    | boolean e => exact hpure (g := fun x => booleanSchema x e) hv
    | file f => exact hlift (g := fun x => fileSchema x f) hv
    | json raw sc => exact hlift (g := fun x => jsonShapeSchema x sc) hv

end

/-- A schema made from a type by the converter, with all the keys it may refer to in `K`. -/
def Made (w : Wrap) (h : St) (a0 : Addr) (K : List String) (r : Option JS) (y : Addr) : Prop :=
  SchemaReach h a0 y ∧ ∃ n D D', visit w h n y D = (.ok r, D') ∧ Defs.keys D' ⊆ K

theorem made_mono (w : Wrap) (h : St) (a0 : Addr) : KeyMono (Made w h a0) := by
  rintro K K' r y hK ⟨h1, n, D, D', h2, h3⟩
  exact ⟨h1, n, D, D', h2, fun k hk => hK (h3 hk)⟩

theorem visit_ok (w : Wrap) (h : St) (a0 : Addr) : ∀ n, VisitOK h a0 (Made w h a0) (visit w h n) := by
  intro n
  induction n with
  | zero => intro y r D D' _ hv; cases hv
  | succ n ih =>
    intro y r D D' hy hv
    refine ⟨?_, hy, n + 1, D, D', hv, fun k hk => hk⟩
    simp only [visit] at hv
    cases hb : h.base y with
    | none => rw [hb] at hv; cases hv
    | some b =>
      rw [hb] at hv
      exact (visitShape_level (made_mono w h a0) ih hy hb hv).1

/-- Every schema made by the converter is put together from others made by it. -/
theorem Made.level {w : Wrap} {h : St} {a0 : Addr} {K : List String} {r : Option JS} {y : Addr} (hm : Made w h a0 K r y) :
    ∃ b K', h.base y = some b ∧ K' ⊆ K ∧ Level w h (Made w h a0 K') K' b b.shape r := by
  obtain ⟨hy, n, D, D', hv, hK⟩ := hm
  cases n with
  | zero => cases hv
  | succ n =>
    simp only [visit] at hv
    cases hb : h.base y with
    | none => rw [hb] at hv; cases hv
    | some b =>
      rw [hb] at hv
      exact ⟨b, D'.keys, rfl, hK, (visitShape_level (made_mono w h a0) (visit_ok w h a0 n) hy hb hv).2⟩

/-- What a successful conversion returns. -/
structure Converted (w : Wrap) (h : St) (a : Addr) (b : Base) (D : Defs) : Prop where
  base : h.base a = some b
  unwrapped : b.unwrapped = true
  wrap : w ≠ .unset
  nodup : D.keys.Nodup
  root : b.name ∈ D.keys
  entries : ∀ k x, (k, x) ∈ D → ∃ hd b', DefinedBy h a hd ∧ h.base hd = some b' ∧ b'.name = k ∧ Made w h a D.keys x hd

theorem convert_converted {w : Wrap} {h : St} {n : Nat} {a : Addr} {s : JS} (hc : convert w h n a = .ok s) :
    ∃ b D, s = rootSchema b.name D ∧ Converted w h a b D := by
  unfold convert at hc
  cases hb : h.base a with
  | none => rw [hb] at hc; cases hc
  | some b =>
    rw [hb] at hc
    dsimp only at hc
    split at hc
    · next hu =>
      split at hc
      · next r D hv =>
        split at hc
        · cases hc
        · next hw =>
          obtain ⟨g, hm⟩ := visit_ok w h a n _ _ _ _ (.refl a) hv
          cases hc
          have hk : OMap.get D b.name = some none := g.old _ _ (by simp [OMap.get])
          have hkeys : Defs.keys (OMap.set D b.name r) = D.keys := by
            show (OMap.set D b.name r).map (·.1) = _
            rw [OMap.keys_set, if_pos (Defs.mem_keys.2 ⟨_, hk⟩)]
          have hnd : Defs.keys (OMap.set D b.name r) |>.Nodup := by rw [hkeys]; exact g.nodup (by simp)
          refine ⟨b, _, rfl, hb, hu, hw, hnd, ?_, ?_⟩
          · rw [hkeys]; exact Defs.mem_keys.2 ⟨_, hk⟩
          · intro k x hx
            rw [OMap.mem_iff_get hnd, OMap.get_set] at hx
            rw [hkeys]
            by_cases hne : k = b.name
            · rw [if_pos hne] at hx
              cases hx
              exact ⟨a, b, Or.inl rfl, hb, hne.symm, hm⟩
            · rw [if_neg hne] at hx
              exact g.new k x hx (by simp [OMap.get, Ne.symm hne])
      · cases hc
      · cases hc
      · cases hc
    · cases hc

/-! ### For examples: the types next to a type as a list -/

/-- The types a conversion visits next. -/
def nextOf (h : St) (a : Addr) : List Addr :=
  match h.base a with
  | none => []
  | some b => ((h.props b.facetDefs).map fun e => e.2.base) ++
    match b.shape with
    | some (.array f) => f.items.toList
    | some (.object f) => ((h.props f.properties).map fun e => e.2.base) ++ (h.patProps f.patternProperties).map fun e => e.2.base
    | some (.union l _) => h.slice l
    | _ => []

/-- The head of a recursive reference. -/
def headOf (h : St) (a : Addr) : List Addr :=
  match h.shapeAt a with
  | some (.recursive hd) => [hd]
  | _ => []

theorem mem_nextOf {h : St} {a y : Addr} (hc : Component h a y) : y ∈ nextOf h a := by
  obtain ⟨b, hb, ⟨s, hs, he⟩ | ⟨e, he, rfl⟩⟩ := hc
  · unfold nextOf
    rw [hb]
    dsimp only
    rw [hs]
    refine List.mem_append_right _ ?_
    cases he with
    | items hi => simp [hi]
    | property hp => exact List.mem_append_left _ (List.mem_map.2 ⟨_, hp, rfl⟩)
    | pattern hp => exact List.mem_append_right _ (List.mem_map.2 ⟨_, hp, rfl⟩)
    | member hm => exact hm
  · unfold nextOf
    rw [hb]
    exact List.mem_append_left _ (List.mem_map.2 ⟨e, he, rfl⟩)

theorem reach_mem {h : St} {S : List Addr} (hS : ∀ x ∈ S, (∀ y ∈ nextOf h x, y ∈ S) ∧ ∀ y ∈ headOf h x, y ∈ S) {a y : Addr} (ha : a ∈ S)
    (hr : SchemaReach h a y) : y ∈ S := by
  induction hr with
  | refl _ => exact ha
  | component c _ ih => exact ih ((hS _ ha).1 _ (mem_nextOf c))
  | head c _ ih => exact ih ((hS _ ha).2 _ (by simp [headOf, c]))

theorem noInfinite_of_rank {h : St} {S : List Addr} (rank : Addr → Nat) (hS : ∀ x ∈ S, ∀ y ∈ nextOf h x, y ∈ S ∧ rank y < rank x) {a : Addr}
    (ha : a ∈ S) : NoInfiniteComponents h a := by
  intro f hf
  by_contra hcon
  have hall : ∀ n, Component h (f n) (f (n + 1)) := fun n => by
    by_contra h'; exact hcon ⟨n, h'⟩
  have hin : ∀ n, f n ∈ S ∧ rank (f n) + n ≤ rank a := by
    intro n
    induction n with
    | zero => rw [hf]; exact ⟨ha, le_rfl⟩
    | succ n ih =>
      have := hS _ ih.1 _ (mem_nextOf (hall n))
      exact ⟨this.1, by have := ih.2; omega⟩
  have := (hin (rank a + 1)).2
  omega

end GoRaml
