import Verif.Lemmas.KinLine
import Verif.Lemmas.MarkValid
import Verif.Lemmas.Narrow
import Verif.Spec.Meaning
import Verif.Spec.Apart

/-!
# What the types of a straight model mean: from the facets to the values
-/

namespace GoRaml.Mean

open GoRaml GoRaml.Spec GoRaml.Kin

/-- What is known of the parsed model. -/
structure Setup (s0 : St) : Prop where
  straight : Straight s0
  shape : ∀ a b, s0.base a = some b → ∃ q, b.shape = some q
  next : ∀ a y, Involves s0 a y → ∃ b, s0.base y = some b
  fresh : ∀ a b, s0.base a = some b → b.unwrapped = false ∧ b.visited = false
  share : ShareNothing s0
  props : ∀ x f i, s0.shapeAt x = some (.object f) → f.properties = some i → ∃ m, s0.pmaps[i]? = some m
  pats : ∀ x f i, s0.shapeAt x = some (.object f) → f.patternProperties = some i → ∃ m, s0.ppmaps[i]? = some m
  plain : ∀ a y, s0.shapeAt a ≠ some (.recursive y)
  slices : ∀ a b i, s0.base a = some b → b.inherits = some i → ∃ m, s0.slices[i]? = some m
  names : ∀ m ∈ s0.pmaps, (m.map (·.1)).Nodup
  patNames : ∀ m ∈ s0.ppmaps, (m.map (·.1)).Nodup

variable {s0 s : St}

/-! ## Lines -/

theorem kind_object {r : Shape} (h : Kind r = "object") : ∃ f, r = .object f := by cases r <;> simp_all [Kind]
theorem kind_array {r : Shape} (h : Kind r = "array") : ∃ f, r = .array f := by cases r <;> simp_all [Kind]
theorem kind_union {r : Shape} (h : Kind r = "union") : ∃ u e, r = .union u e := by cases r <;> simp_all [Kind]

theorem kind_recursive {r : Shape} (h : Kind r = "recursive") : ∃ y, r = .recursive y := by cases r <;> simp_all [Kind]

theorem Setup.shapeAt (S : Setup s0) {a : Addr} {b : Base} (h : s0.base a = some b) : ∃ q, b.shape = some q ∧ s0.shapeAt a = some q := by
  obtain ⟨q, hq⟩ := S.shape a b h
  exact ⟨q, hq, by simp [St.shapeAt, h, hq]⟩

theorem builtOn_base {h : St} {d x : Addr} (hx : BuiltOn h d x) : ∃ b, h.base d = some b := by
  cases hx with
  | «alias» h1 => exact ⟨_, h1⟩
  | included h1 => exact ⟨_, h1⟩
  | parent h1 => exact ⟨_, h1⟩

theorem line_base {h : St} {d : Addr} {l : List Addr} (hl : Line h d l) : ∃ b, h.base d = some b := by
  cases hl with
  | root h1 => exact ⟨_, h1⟩
  | «alias» h1 => exact ⟨_, h1⟩
  | on h1 => exact ⟨_, h1⟩

/-- All declarations of a line are of one kind. -/
theorem Setup.lineKind (S : Setup s0) {x : Addr} {l : List Addr} (hl : Line s0 x l) {q : Shape} (hq : s0.shapeAt x = some q) :
    l ≠ [] ∧ ∀ c ∈ l, ∃ r, s0.shapeAt c = some r ∧ Kind r = Kind q := by
  induction hl generalizing q with
  | root h1 => exact ⟨by simp, fun c hc => by rw [List.mem_singleton.1 hc]; exact ⟨q, hq, rfl⟩⟩
  | «alias» h1 h2 h3 ih =>
    obtain ⟨b, hb⟩ := line_base h3
    obtain ⟨r, _, hr⟩ := S.shapeAt hb
    obtain ⟨k1, k2⟩ := ih hr
    have := S.straight.kinds _ _ q r (.alias h1 h2) hq hr
    exact ⟨k1, fun c hc => by obtain ⟨t, e1, e2⟩ := k2 c hc; exact ⟨t, e1, e2.trans this.symm⟩⟩
  | on h1 h2 h3 h4 ih =>
    obtain ⟨b, hb⟩ := line_base h4
    obtain ⟨r, _, hr⟩ := S.shapeAt hb
    obtain ⟨_, k2⟩ := ih hr
    have := S.straight.kinds _ _ q r h3 hq hr
    refine ⟨by simp, fun c hc => ?_⟩
    rcases List.mem_cons.1 hc with rfl | hc
    · exact ⟨q, hq, rfl⟩
    · obtain ⟨t, e1, e2⟩ := k2 c hc; exact ⟨t, e1, e2.trans this.symm⟩

/-! ## Properties that are declared more than once -/

/-- The properties of a declaration. -/
def propsAt (s0 : St) (c : Addr) : OMap Property := s0.props (objectAt s0 c).properties

/-- The properties of a line: of several declarations of one, the nearest. -/
def mergedLine (s0 : St) : List Addr → OMap Property
  | [] => []
  | c :: l => mergedProps (propsAt s0 c) (mergedLine s0 l)

/-- The declaration `a` has a property of type `x`, and the next declaration of that property in its line is of type `y`. -/
def Over (s0 : St) (a x y : Addr) : Prop :=
  ∃ lt k p q, Line s0 a (a :: lt) ∧ (k, p) ∈ propsAt s0 a ∧ (k, q) ∈ mergedLine s0 lt ∧ p.base = x ∧ q.base = y

/-- The type and those that it overrides. -/
inductive Covers (s0 : St) : Addr → Addr → Prop where
  | refl (x : Addr) : Covers s0 x x
  | step {a x y z : Addr} : Over s0 a x y → Covers s0 y z → Covers s0 x z

theorem mem_pair {α β : Type} {m : List (α × β)} (h : (m.map (·.1)).Nodup) {k : α} {p q : β} (hp : (k, p) ∈ m) (hq : (k, q) ∈ m) : p = q := by
  induction m with
  | nil => cases hp
  | cons e m ih =>
    simp only [List.map_cons, List.nodup_cons] at h
    rcases List.mem_cons.1 hp with e1 | e1 <;> rcases List.mem_cons.1 hq with e2 | e2
    · rw [← e1] at e2; cases e2; rfl
    · rw [← e1] at h; exact (h.1 (List.mem_map.2 ⟨(k, q), e2, rfl⟩)).elim
    · rw [← e2] at h; exact (h.1 (List.mem_map.2 ⟨(k, p), e1, rfl⟩)).elim
    · exact ih h.2 e1 e2

theorem Setup.propsNames (S : Setup s0) (p : Option Nat) : ((s0.props p).map (·.1)).Nodup := by
  cases p with
  | none => simp [St.props]
  | some i =>
    cases h : s0.pmaps[i]? with
    | none => simp [St.props, h]
    | some m => simpa [St.props, h] using S.names m (List.mem_of_getElem? h)

theorem merged_nodup {ps qs : OMap Property} (h1 : (ps.map (·.1)).Nodup) (h2 : (qs.map (·.1)).Nodup) : ((mergedProps ps qs).map (·.1)).Nodup := by
  unfold mergedProps
  rw [List.map_append]
  refine List.nodup_append.2 ⟨h1, h2.sublist (List.filter_sublist.map _), fun k hk k' hk' e => ?_⟩
  obtain ⟨x, hx, rfl⟩ := List.mem_map.1 hk
  obtain ⟨y, hy, rfl⟩ := List.mem_map.1 hk'
  have := (List.mem_filter.1 hy).2
  simp only [List.all_eq_true, decide_eq_true_eq] at this
  exact this x hx e

theorem Setup.lineNames (S : Setup s0) : ∀ l, ((mergedLine s0 l).map (·.1)).Nodup
  | [] => by simp [mergedLine]
  | _ :: l => merged_nodup (S.propsNames _) (S.lineNames l)

theorem mem_mergedLine {e : String × Property} : ∀ {l : List Addr}, e ∈ mergedLine s0 l → ∃ c ∈ l, e ∈ propsAt s0 c
  | [], h => by cases h
  | c :: l, h => by
    rcases mem_merged.1 h with h | h
    · exact ⟨c, by simp, h⟩
    · obtain ⟨c', h1, h2⟩ := mem_mergedLine h.1
      exact ⟨c', by simp [h1], h2⟩

theorem mergedLine_key {k : String} : ∀ {l : List Addr} {c : Addr} {q : Property}, c ∈ l → (k, q) ∈ propsAt s0 c → ∃ p, (k, p) ∈ mergedLine s0 l
  | [], _, _, h, _ => by cases h
  | d :: l, c, q, hc, hq => by
    by_cases hd : ∃ p ∈ propsAt s0 d, p.1 = k
    · obtain ⟨⟨_, p⟩, h1, rfl⟩ := hd
      exact ⟨p, mem_merged.2 (.inl h1)⟩
    · rcases List.mem_cons.1 hc with rfl | hc
      · exact absurd ⟨_, hq, rfl⟩ hd
      · obtain ⟨p, hp⟩ := mergedLine_key hc hq
        exact ⟨p, mem_merged.2 (.inr ⟨hp, fun p' h e => hd ⟨p', h, e⟩⟩)⟩

/-- Where a property is held. -/
theorem prop_spot {a : Addr} {k : String} {p : Property} (h : (k, p) ∈ propsAt s0 a) :
    ∃ m, UsedFor s0 (.properties a) m ∧ HeldAt s0 (.property m k) p.base := by
  unfold propsAt objectAt at h
  split at h
  · rename_i f hf
    unfold St.shapeAt at hf
    obtain ⟨b, h1, h2⟩ := Option.bind_eq_some_iff.1 hf
    cases hm : f.properties with
    | none => rw [hm] at h; cases h
    | some m =>
      cases hl : s0.pmaps[m]? with
      | none => simp [St.props, hm, hl] at h
      | some l =>
        simp only [St.props, hm, hl, Option.getD_some] at h
        exact ⟨m, .properties h1 h2 hm, .property hl h⟩
  · simp [St.props] at h

/-- A type is of one property only. -/
theorem Setup.owner (S : Setup s0) {a a' : Addr} {k k' : String} {p p' : Property} (h : (k, p) ∈ propsAt s0 a) (h' : (k', p') ∈ propsAt s0 a') (e : p.base = p'.base) :
    a = a' ∧ k = k' ∧ p = p' := by
  obtain ⟨m, h1, h2⟩ := prop_spot h
  obtain ⟨m', h3, h4⟩ := prop_spot h'
  rw [← e] at h4
  cases S.share.once _ _ _ h2 h4
  cases S.share.maps _ _ _ h1 h3
  exact ⟨rfl, rfl, mem_pair (S.propsNames _) h h'⟩

theorem Over.spot {a x y : Addr} (h : Over s0 a x y) : ∃ m k, HeldAt s0 (.property m k) x := by
  obtain ⟨lt, k, p, q, _, h2, _, rfl, _⟩ := h
  obtain ⟨m, _, h⟩ := prop_spot h2
  exact ⟨m, k, h⟩

theorem Over.unique (S : Setup s0) {a a' x y y' : Addr} (h : Over s0 a x y) (h' : Over s0 a' x y') : a = a' ∧ y = y' := by
  obtain ⟨lt, k, p, q, h1, h2, h3, h4, rfl⟩ := h
  obtain ⟨lt', k', p', q', h1', h2', h3', h4', rfl⟩ := h'
  obtain ⟨rfl, rfl, rfl⟩ := S.owner h2 h2' (h4.trans h4'.symm)
  cases Line.unique h1 h1'
  exact ⟨rfl, by rw [mem_pair (S.lineNames lt) h3 h3']⟩

theorem covers_self {x y : Addr} (hx : ∀ a z, ¬ Over s0 a x z) (h : Covers s0 x y) : y = x := by
  cases h with
  | refl => rfl
  | step h _ => exact absurd h (hx _ _)

/-- The types that the nearest declaration of a property covers are those of all its declarations in the line. -/
theorem Setup.covers (S : Setup s0) {x : Addr} {l : List Addr} (hl : Line s0 x l) {k : String} {p : Property} (hp : (k, p) ∈ mergedLine s0 l) {y : Addr} :
    Covers s0 p.base y ↔ ∃ c ∈ l, ∃ q, (k, q) ∈ propsAt s0 c ∧ q.base = y := by
  induction hl generalizing p y with
  | @root d _ h1 h2 h3 h4 =>
    have hr : Line s0 d [d] := .root h1 h2 h3 h4
    have hp : (k, p) ∈ propsAt s0 d := by
      rcases mem_merged.1 hp with h | h
      · exact h
      · cases h.1
    constructor
    · intro h
      refine ⟨d, by simp, p, hp, (covers_self (fun a z h => ?_) h).symm⟩
      obtain ⟨lt, k', p', q', e1, e2, e3, e4, _⟩ := h
      obtain ⟨rfl, _, _⟩ := S.owner hp e2 e4.symm
      cases Line.unique e1 hr
      cases e3
    · rintro ⟨c, hc, q, hq, rfl⟩
      rw [List.mem_singleton.1 hc] at hq
      rw [mem_pair (S.propsNames _) hp hq]
      exact .refl _
  | «alias» _ _ _ ih => exact ih hp
  | @on d x' b l h1 h2 h3 h4 ih =>
    have hr : Line s0 d (d :: l) := .on h1 h2 h3 h4
    rcases mem_merged.1 hp with hp | ⟨hp, hno⟩
    · constructor
      · intro h
        cases h with
        | refl => exact ⟨d, by simp, p, hp, rfl⟩
        | step h k1 =>
          obtain ⟨lt, k', p', q', e1, e2, e3, e4, rfl⟩ := h
          obtain ⟨rfl, rfl, _⟩ := S.owner hp e2 e4.symm
          cases Line.unique e1 hr
          obtain ⟨c, j1, j2⟩ := (ih e3).1 k1
          exact ⟨c, by simp [j1], j2⟩
      · rintro ⟨c, hc, q, hq, rfl⟩
        rcases List.mem_cons.1 hc with rfl | hc
        · rw [mem_pair (S.propsNames _) hp hq]; exact .refl _
        · obtain ⟨q', hq'⟩ := mergedLine_key hc hq
          exact .step ⟨l, k, p, q', hr, hp, hq', rfl, rfl⟩ ((ih hq').2 ⟨c, hc, q, hq, rfl⟩)
    · rw [ih hp]
      constructor
      · rintro ⟨c, hc, h⟩; exact ⟨c, by simp [hc], h⟩
      · rintro ⟨c, hc, q, hq, e⟩
        rcases List.mem_cons.1 hc with rfl | hc
        · exact absurd rfl (hno (k, q) hq)
        · exact ⟨c, hc, q, hq, e⟩

/-- A part of a type that is no property. -/
inductive Inner (s0 : St) (c : Addr) : Addr → Prop where
  | items {f : ArrayF} {y : Addr} : s0.shapeAt c = some (.array f) → f.items = some y → Inner s0 c y
  | pattern {f : ObjectF} {p : String × PatternProperty} : s0.shapeAt c = some (.object f) → p ∈ s0.patProps f.patternProperties → Inner s0 c p.2.base
  | member {u : Option Nat} {e : Option (List GoVal)} {y : Addr} : s0.shapeAt c = some (.union u e) → y ∈ s0.slice u → Inner s0 c y

/-- They override nothing. -/
theorem Setup.notOver (S : Setup s0) {c y : Addr} (h : Inner s0 c y) (a z : Addr) : ¬ Over s0 a y z := fun ho => by
  obtain ⟨m, k, hs⟩ := ho.spot
  have at_ : ∀ {q}, s0.shapeAt c = some q → ∃ b, s0.base c = some b ∧ b.shape = some q := fun hq => by
    unfold St.shapeAt at hq
    exact Option.bind_eq_some_iff.1 hq
  cases h with
  | items hq h1 =>
    obtain ⟨b, hb, hbs⟩ := at_ hq
    cases S.share.once _ _ _ hs (.items hb hbs h1)
  | @pattern f p hq h1 =>
    cases hm : f.patternProperties with
    | none => rw [hm] at h1; cases h1
    | some i =>
      cases hl : s0.ppmaps[i]? with
      | none => simp [St.patProps, hm, hl] at h1
      | some l =>
        simp only [St.patProps, hm, hl, Option.getD_some] at h1
        cases S.share.once _ _ _ hs (.pattern hl (k := p.1) (p := p.2) h1)
  | @member u e x hq h1 =>
    obtain ⟨b, hb, hbs⟩ := at_ hq
    cases u with
    | none => cases h1
    | some i =>
      cases hl : s0.slices[i]? with
      | none => simp [St.slice, hl] at h1
      | some l =>
        simp only [St.slice, hl, Option.getD_some] at h1
        obtain ⟨j, hj⟩ := List.mem_iff_getElem?.1 h1
        cases S.share.once _ _ _ hs (.member hb hbs hl hj)

/-- Types that others are built on override nothing. -/
theorem Setup.notOverRef (S : Setup s0) {d x : Addr} (h : BuiltOn s0 d x) (a z : Addr) : ¬ Over s0 a x z := fun ho => by
  obtain ⟨m, k, hs⟩ := ho.spot
  refine S.share.parts _ _ hs ?_
  cases h with
  | «alias» h1 h2 => exact .alias h1 h2
  | included h1 h2 h3 h4 h5 => exact .dataType (List.mem_of_getElem? h4) h5
  | @parent b h1 h2 h3 h4 =>
    cases hi : b.inherits with
    | none => rw [hi] at h4; cases h4
    | some i =>
      cases hl : s0.slices[i]? with
      | none => simp [St.slice, hi, hl] at h4
      | some l =>
        simp only [St.slice, hi, hl, Option.getD_some] at h4
        exact .parent h1 hi hl (by rw [h4]; simp)

/-- `P` is what all covered types have, for the types `D`. -/
def Spread (s0 : St) (D : Addr → Prop) (P Q : Addr → GoVal → Prop) : Prop := ∀ x, D x → ∀ w, P x w ↔ ∀ y, Covers s0 x y → Q y w

theorem Spread.self {D : Addr → Prop} {P Q : Addr → GoVal → Prop} (hP : Spread s0 D P Q) {x : Addr} {w : GoVal} (hx : ∀ a z, ¬ Over s0 a x z) (hD : D x) : P x w ↔ Q x w :=
  (hP x hD w).trans ⟨fun h => h x (.refl x), fun h y hy => by rw [covers_self hx hy]; exact h⟩

theorem line_tail {d c : Addr} {l lt : List Addr} (h : Line s0 d l) (e : l = c :: lt) : lt = [] ∨ ∃ x, Line s0 x lt := by
  induction h with
  | root => cases e; exact .inl rfl
  | «alias» _ _ _ ih => exact ih e
  | on _ _ _ h => cases e; exact .inr ⟨_, h⟩

theorem props_object {c : Addr} {k : String} {p : Property} (h : (k, p) ∈ propsAt s0 c) : ∃ f, s0.shapeAt c = some (.object f) ∧ (k, p) ∈ s0.props f.properties := by
  unfold propsAt objectAt at h
  split at h
  · exact ⟨_, ‹_›, h⟩
  · simp [St.props] at h

/-- The declarations that a property overrides. -/
theorem Setup.overAt (S : Setup s0) {a x y z : Addr} (h : Over s0 a x y) (hz : Covers s0 y z) :
    ∃ lt c k p q, Line s0 a (a :: lt) ∧ c ∈ lt ∧ (k, p) ∈ propsAt s0 a ∧ (k, q) ∈ propsAt s0 c ∧ p.base = x ∧ q.base = z ∧ Distinct s0 a c := by
  obtain ⟨lt, k, p, q, h1, h2, h3, rfl, rfl⟩ := h
  rcases line_tail h1 rfl with rfl | ⟨x', hx'⟩
  · cases h3
  obtain ⟨c, hc, q', hq', rfl⟩ := (S.covers hx' h3).1 hz
  obtain ⟨b, hb⟩ := line_base h1
  obtain ⟨l', hl', hd⟩ := S.straight.line a b hb
  cases Line.unique hl' h1
  exact ⟨lt, c, k, p, q', h1, hc, h2, hq', rfl, rfl, List.rel_of_pairwise_cons hd hc⟩

/-- The two types are scalar types with one pattern at most. -/
theorem Setup.overScalar (S : Setup s0) {a x y z : Addr} (h : Over s0 a x y) (hz : Covers s0 y z) :
    Scalar s0 x ∧ Scalar s0 z ∧ OnePattern s0 x z := by
  obtain ⟨lt, c, k, p, q, _, _, hp, hq, rfl, rfl, hd⟩ := S.overAt h hz
  obtain ⟨f, h1, h2⟩ := props_object hp
  obtain ⟨g, h3, h4⟩ := props_object hq
  obtain ⟨k1, k2, k3, _⟩ := hd.properties f g h1 h3 _ h2 _ h4 rfl
  exact ⟨k1, k2, k3⟩

/-! ## What unwrapping shall make of a type -/

/-- An object type that has taken up its line. -/
structure ObjEff (s0 s : St) (l : List Addr) (f : ObjectF) : Prop where
  bounds : ∀ k, Between (· ≤ ·) f.minProperties f.maxProperties k ↔ ∀ c ∈ l, Between (· ≤ ·) (objectAt s0 c).minProperties (objectAt s0 c).maxProperties k
  props : s.props f.properties = mergedLine s0 l
  req : ∀ c ∈ l, ∀ q ∈ propsAt s0 c, q.2.required = true → ∃ p ∈ mergedLine s0 l, p.1 = q.1 ∧ p.2.required = true
  pats : s.patProps f.patternProperties = l.flatMap fun c => s0.patProps (objectAt s0 c).patternProperties
  more : f.additionalProperties = l.findSome? fun c => (objectAt s0 c).additionalProperties
  ptr : ∀ i, f.properties = some i → ∃ c ∈ l, (objectAt s0 c).properties = some i
  pptr : ∀ i, f.patternProperties = some i → ∃ c ∈ l, (objectAt s0 c).patternProperties = some i

/-- An array type that has taken up its line. -/
structure ArrEff (s0 : St) (l : List Addr) (f : ArrayF) : Prop where
  bounds : ∀ k, Between (· ≤ ·) f.minItems f.maxItems k ↔ ∀ c ∈ l, Between (· ≤ ·) (arrayAt s0 c).minItems (arrayAt s0 c).maxItems k
  items : f.items = l.findSome? fun c => (arrayAt s0 c).items
  unique : f.uniqueItems = some true ↔ ∃ c ∈ l, (arrayAt s0 c).uniqueItems = some true

/-- A type without components that has taken up its line. -/
def LeafEff (s0 : St) (l : List Addr) (q : Shape) : Prop :=
  (∃ r, l = [r] ∧ s0.shapeAt r = some q) ∨
  (Plain q ∧ (∀ E v, LeafV E q v ↔ ∀ c ∈ l, ∃ sh, s0.shapeAt c = some sh ∧ LeafV E sh v) ∧ (∀ f, q = .string f → f.pattern ≠ none → ∃ c ∈ l, HasPattern s0 c) ∧
    ((∀ c ∈ l, ∃ sh, s0.shapeAt c = some sh ∧ Restricting sh) → Restricting q))

/-- The shape `q` has taken up the line. -/
def ShapeEff (s0 s : St) (l : List Addr) (q : Shape) : Prop :=
  match q with
  | .object f => ObjEff s0 s l f
  | .array f => ArrEff s0 l f
  | .union u _ => ∃ c e, l.getLast? = some c ∧ s0.shapeAt c = some (.union u e)
  | q => LeafEff s0 l q

/-- The type has taken up its line. -/
def Eff (s0 s : St) (x : Addr) (l : List Addr) : Prop :=
  ∃ q0 q, s0.shapeAt x = some q0 ∧ s.shapeAt x = some q ∧ Kind q = Kind q0 ∧ ShapeEff s0 s l q

/-! ## From there to the values -/

theorem declares_iff_mem {m : OMap Property} (hn : (m.map (·.1)).Nodup) {k : String} {p : Property} : Declares m k p ↔ (k, p) ∈ m := by
  refine ⟨fun h => h.mem, fun h => ?_⟩
  obtain ⟨q, hq⟩ := declares_of_mem ⟨_, h, rfl⟩
  rw [mem_pair hn h hq.mem]
  exact hq

theorem findSome_false {α : Type} {g : α → Option Bool} : ∀ {l : List α}, l.findSome? g ≠ some false ↔
    ∀ pre c post, l = pre ++ c :: post → g c = some false → ∃ c' ∈ pre, g c' = some true
  | [] => by simp
  | a :: l => by
    rw [List.findSome?_cons]
    cases ha : g a with
    | some b =>
      cases b with
      | true =>
        refine ⟨fun _ pre c post e hc => ?_, fun _ => by simp⟩
        cases pre with
        | nil => simp only [List.nil_append, List.cons.injEq] at e; rw [← e.1, ha] at hc; cases hc
        | cons a' pre => simp only [List.cons_append, List.cons.injEq] at e; exact ⟨a', by simp, by rw [← e.1, ha]⟩
      | false =>
        refine ⟨fun h => absurd rfl h, fun h => ?_⟩
        obtain ⟨c', h1, _⟩ := h [] a l rfl ha
        cases h1
    | none =>
      show l.findSome? g ≠ some false ↔ _
      rw [findSome_false]
      constructor
      · intro h pre c post e hc
        cases pre with
        | nil => simp only [List.nil_append, List.cons.injEq] at e; rw [← e.1, ha] at hc; cases hc
        | cons a' pre =>
          simp only [List.cons_append, List.cons.injEq] at e
          obtain ⟨c', h1, h2⟩ := h pre c post e.2 hc
          exact ⟨c', by simp [h1], h2⟩
      · intro h pre c post e hc
        obtain ⟨c', h1, h2⟩ := h (a :: pre) c post (by rw [e]; rfl) hc
        rcases List.mem_cons.1 h1 with rfl | h1
        · rw [ha] at h2; cases h2
        · exact ⟨c', h1, h2⟩

theorem findSome_one {α β : Type} {g : α → Option β} : ∀ {l : List α}, l.Pairwise (fun c c' => g c = none ∨ g c' = none) → ∀ a, (l.findSome? g = some a ↔ ∃ c ∈ l, g c = some a)
  | [], _, a => by simp
  | c :: l, hp, a => by
    rw [List.findSome?_cons]
    cases hc : g c with
    | some b =>
      simp only [List.mem_cons, exists_eq_or_imp, hc, Option.some.injEq]
      refine ⟨.inl, fun h => h.elim id fun ⟨c', h1, h2⟩ => ?_⟩
      rcases (List.pairwise_cons.1 hp).1 c' h1 with h | h
      · rw [hc] at h; cases h
      · rw [h2] at h; cases h
    | none =>
      simp only [List.mem_cons, exists_eq_or_imp, hc, reduceCtorEq, false_or]
      exact findSome_one (List.pairwise_cons.1 hp).2 a

theorem objectAt_eq {h : St} {c : Addr} {f : ObjectF} (hc : h.shapeAt c = some (.object f)) : objectAt h c = f := by simp [objectAt, hc]

theorem arrayAt_eq {h : St} {c : Addr} {f : ArrayF} (hc : h.shapeAt c = some (.array f)) : arrayAt h c = f := by simp [arrayAt, hc]

theorem object_step (S : Setup s0) {x : Addr} {l : List Addr} {f : ObjectF} (hl : Line s0 x l) (hk : ∀ c ∈ l, ∃ g, s0.shapeAt c = some (.object g)) (he : ObjEff s0 s l f)
    (M : String → String → Bool) {D : Addr → Prop} (hD : ∀ c ∈ l, ∀ y, Refers s0 c y → D y) {P Q : Addr → GoVal → Prop} (hP : Spread s0 D P Q) (v : GoVal) :
    ObjectOK M P s f v ↔ LineObjectOK M Q s0 l v := by
  have all : ∀ {Q : Addr → ObjectF → Prop}, (∀ c ∈ l, ∀ f, s0.shapeAt c = some (.object f) → Q c f) ↔ ∀ c ∈ l, Q c (objectAt s0 c) := by
    intro Q
    refine forall₂_congr fun c hc => ?_
    obtain ⟨g, hg⟩ := hk c hc
    rw [objectAt_eq hg]
    exact ⟨fun h => h g hg, fun h f hf => by rw [hg] at hf; cases hf; exact h⟩
  have ex : ∀ {Q : Addr → ObjectF → Prop}, (∃ c ∈ l, ∃ f, s0.shapeAt c = some (.object f) ∧ Q c f) ↔ ∃ c ∈ l, Q c (objectAt s0 c) := by
    intro Q
    refine exists_congr fun c => and_congr_right fun hc => ?_
    obtain ⟨g, hg⟩ := hk c hc
    rw [objectAt_eq hg]
    exact ⟨fun ⟨f, hf, h⟩ => by rw [hg] at hf; cases hf; exact h, fun h => ⟨g, hg, h⟩⟩
  have part : ∀ {c p}, c ∈ l → p ∈ propsAt s0 c → D p.2.base := fun {c p} hc hp => by
    obtain ⟨g, hg⟩ := hk c hc
    refine hD c hc _ ⟨_, hg, .property ?_⟩
    unfold propsAt at hp
    rw [objectAt_eq hg] at hp
    exact hp
  have hkey : ∀ k, (∀ q ∈ mergedLine s0 l, q.1 ≠ k) ↔ ∀ c ∈ l, ∀ q ∈ propsAt s0 c, q.1 ≠ k := fun k => by
    constructor
    · rintro h c hc ⟨_, q⟩ hq rfl
      obtain ⟨p, hp⟩ := mergedLine_key hc hq
      exact h _ hp rfl
    · intro h q hq
      obtain ⟨c, hc, hq⟩ := mem_mergedLine hq
      exact h c hc q hq
  unfold ObjectOK LineObjectOK
  refine exists_congr fun m => and_congr_right fun _ => ?_
  refine and_congr ?_ (and_congr ?_ (and_congr ?_ ?_))
  · rw [he.bounds, all (Q := fun _ f => Between (· ≤ ·) f.minProperties f.maxProperties m.length)]
  · rw [he.props, all (Q := fun _ f => ∀ p ∈ s0.props f.properties, p.2.required = true → ∃ x, (p.1, x) ∈ m)]
    constructor
    · intro h c hc q hq hr
      obtain ⟨p, h1, h2, h3⟩ := he.req c hc q hq hr
      rw [← h2]
      exact h p h1 h3
    · intro h p hp hr
      obtain ⟨c, hc, hp⟩ := mem_mergedLine hp
      exact h c hc p hp hr
  · rw [he.props, all (Q := fun _ f => ∀ k x p, (k, x) ∈ m → Declares (s0.props f.properties) k p → Q p.base x)]
    simp only [declares_iff_mem (S.lineNames l), declares_iff_mem (S.propsNames _)]
    constructor
    · intro h c hc k w q hm hq
      obtain ⟨p, hp⟩ := mergedLine_key hc hq
      obtain ⟨c', hc', hp'⟩ := mem_mergedLine hp
      exact (hP _ (part hc' hp') w).1 (h k w p hm hp) _ ((S.covers hl hp).2 ⟨c, hc, q, hq, rfl⟩)
    · intro h k w p hm hp
      obtain ⟨c', hc', hp'⟩ := mem_mergedLine hp
      refine (hP _ (part hc' hp') w).2 fun y hy => ?_
      obtain ⟨c, hc, q, hq, rfl⟩ := (S.covers hl hp).1 hy
      exact h c hc k w q hm hq
  · refine forall_congr' fun k => forall_congr' fun w => imp_congr_right fun _ => ?_
    refine imp_congr ?_ (and_congr ?_ ?_)
    · rw [he.props, all (Q := fun _ f => ∀ q ∈ s0.props f.properties, q.1 ≠ k)]
      exact hkey k
    · rw [he.more, findSome_false]
      constructor
      · intro h pre c post f e hc hf
        obtain ⟨c', h1, h2⟩ := h pre c post e (by rw [objectAt_eq hc]; exact hf)
        obtain ⟨g, hg⟩ := hk c' (by rw [e]; simp [h1])
        exact ⟨c', h1, g, hg, by rw [objectAt_eq hg] at h2; exact h2⟩
      · intro h pre c post e hc
        obtain ⟨g, hg⟩ := hk c (by rw [e]; simp)
        obtain ⟨c', h1, f', h2, h3⟩ := h pre c post g e hg (by rw [objectAt_eq hg] at hc; exact hc)
        exact ⟨c', h1, by rw [objectAt_eq h2]; exact h3⟩
    · rw [all (Q := fun _ f => ∀ p ∈ s0.patProps f.patternProperties, M p.2.pattern k = false),
        ex (Q := fun _ f => ∃ p ∈ s0.patProps f.patternProperties, M p.2.pattern k = true ∧ Q p.2.base w)]
      unfold PatternRule
      rw [he.pats]
      refine or_congr ?_ ?_
      · simp only [List.mem_flatMap, forall_exists_index, and_imp]
        exact ⟨fun h c hc p hp => h p c hc hp, fun h p c hc hp => h c hc p hp⟩
      · simp only [List.mem_flatMap]
        have self : ∀ c ∈ l, ∀ p ∈ s0.patProps (objectAt s0 c).patternProperties, (P p.2.base w ↔ Q p.2.base w) := fun c hc p hp => by
          obtain ⟨g, hg⟩ := hk c hc
          rw [objectAt_eq hg] at hp
          exact hP.self (S.notOver (.pattern hg hp)) (hD c hc _ ⟨_, hg, .pattern hp⟩)
        exact ⟨fun ⟨p, ⟨c, h1, h2⟩, h3, h4⟩ => ⟨c, h1, p, h2, h3, (self c h1 p h2).1 h4⟩, fun ⟨c, h1, p, h2, h3, h4⟩ => ⟨p, ⟨c, h1, h2⟩, h3, (self c h1 p h2).2 h4⟩⟩

theorem array_step {l : List Addr} {f : ArrayF} (hd : l.Pairwise (Distinct s0)) (hne : l ≠ []) (hk : ∀ c ∈ l, ∃ g, s0.shapeAt c = some (.array g)) (he : ArrEff s0 l f)
    (H : GoVal → Option Nat) (P : Addr → GoVal → Prop) (v : GoVal) : ArrayOK H P f v ↔ ∀ c ∈ l, ArrayOK H P (arrayAt s0 c) v := by
  have hpw : l.Pairwise fun c c' => (arrayAt s0 c).items = none ∨ (arrayAt s0 c').items = none := by
    refine hd.imp_of_mem fun {c c'} hc hc' h => ?_
    obtain ⟨g, hg⟩ := hk c hc
    obtain ⟨g', hg'⟩ := hk c' hc'
    rw [arrayAt_eq hg, arrayAt_eq hg']
    exact h.items g g' hg hg'
  constructor
  · rintro ⟨li, hv, h1, h2, h3⟩ c hc
    refine ⟨li, hv, (he.bounds _).1 h1 c hc, fun a ha => h2 a ?_, fun hu => h3 (he.unique.2 ⟨c, hc, hu⟩)⟩
    rw [he.items, findSome_one hpw]
    exact ⟨c, hc, ha⟩
  · intro h
    obtain ⟨c0, hc0⟩ := List.exists_mem_of_ne_nil l hne
    obtain ⟨li, hv, _⟩ := h c0 hc0
    have h' : ∀ c ∈ l, Between (· ≤ ·) (arrayAt s0 c).minItems (arrayAt s0 c).maxItems li.length ∧ (∀ a, (arrayAt s0 c).items = some a → ∀ x ∈ li, P a x) ∧
        ((arrayAt s0 c).uniqueItems = some true → ∃ hs : List Nat, li.map H = hs.map some ∧ hs.Nodup) := fun c hc => by
      obtain ⟨li', hv', h1⟩ := h c hc
      rw [hv] at hv'; cases hv'
      exact h1
    refine ⟨li, hv, (he.bounds _).2 fun c hc => (h' c hc).1, fun a ha => ?_, fun hu => ?_⟩
    · rw [he.items, findSome_one hpw] at ha
      obtain ⟨c, hc, ha⟩ := ha
      exact (h' c hc).2.1 a ha
    · obtain ⟨c, hc, hu⟩ := he.unique.1 hu
      exact (h' c hc).2.2 hu

/-- A model with one type. -/
def only (q : Shape) : St := { bases := [{ shape := some q }] }

theorem leafV_step {E : Ext} {h : St} {P : Addr → GoVal → Prop} {a : Addr} {q : Shape} (hq : h.shapeAt a = some q) (hl : IsLeaf q) {v : GoVal} (hv : GoValue v) :
    LeafV E q v ↔ Step E h P a v := by
  have h0 : (only q).shapeAt 0 = some q := rfl
  have at_ : ∀ a r, (only q).shapeAt a = some r → r = q := fun a r h => by
    cases a with
    | zero => rw [h0] at h; cases h; rfl
    | succ n => simp [St.shapeAt, St.base, only] at h
  have hc : Spec.Closed (only q) := fun a b hb => by
    have : b = { shape := some q } := by
      cases a with
      | zero => simpa [St.base, only] using hb.symm
      | succ n => simp [St.base, only] at hb
    subst this
    refine ⟨q, rfl, ?_⟩
    cases q <;> first | exact trivial | exact hl.elim
  have hg : Guarded (only q) := ⟨fun _ => 0, fun a => ⟨fun u e h => by rw [← at_ a _ h] at hl; exact hl.elim, fun y h => by rw [← at_ a _ h] at hl; exact hl.elim⟩⟩
  have key := (accepts_iff_valid E hc hg (a := 0) (by simp [only]) hv).1
  rw [leaf_accepts h0 hl, valid_iff_step] at key
  refine key.trans ?_
  unfold Step
  rw [h0, hq]
  cases q <;> first | exact Iff.rfl | exact hl.elim

theorem restricting_leaf {q : Shape} (h : Plain q) : IsLeaf q := h.1

theorem kind_leaf {q r : Shape} (h : Kind q = Kind r) (hl : IsLeaf q) : IsLeaf r := by
  cases q <;> first | exact hl.elim | (cases r <;> first | exact trivial | (simp [Kind] at h))

/-- A scalar type that has taken up some declarations has the values that they accept. -/
theorem eff_leaf {x : Addr} {l : List Addr} (he : Eff s0 s x l) {q0 : Shape} (hq0 : s0.shapeAt x = some q0) (hlf : IsLeaf q0) (E : Ext) (P : Addr → GoVal → Prop)
    {v : GoVal} (hv : GoValue v) : Step E s P x v ↔ ∀ c ∈ l, ∃ sh, s0.shapeAt c = some sh ∧ LeafV E sh v := by
  obtain ⟨q0', q, hq0', hq, hk, he⟩ := he
  rw [hq0] at hq0'
  cases hq0'
  have hlq : IsLeaf q := kind_leaf hk.symm hlf
  have he : LeafEff s0 l q := by cases q <;> first | exact he | exact hlq.elim
  rw [← leafV_step hq hlq hv]
  rcases he with ⟨r, rfl, h2⟩ | ⟨_, h2, _⟩
  · simp [h2]
  · exact h2 E v

/-- The same for the declarations. -/
theorem line_leaf {l : List Addr} (hne : l ≠ []) (hl : ∀ c ∈ l, ∃ q, s0.shapeAt c = some q ∧ IsLeaf q) (E : Ext) (P : Addr → GoVal → Prop)
    {v : GoVal} (hv : GoValue v) : LineOK E s0 P l v ↔ ∀ c ∈ l, ∃ sh, s0.shapeAt c = some sh ∧ LeafV E sh v := by
  have h1 : LineOK E s0 P l v ↔ ∀ c ∈ l, Step E s0 P c v := by
    cases l with
    | nil => exact absurd rfl hne
    | cons c l =>
      obtain ⟨q, hq, hlf⟩ := hl c (by simp)
      unfold LineOK
      rw [List.head?_cons, Option.bind_some, hq]
      cases q <;> first | exact Iff.rfl | exact hlf.elim
  rw [h1]
  refine forall₂_congr fun c hc => ?_
  obtain ⟨q, hq, hlf⟩ := hl c hc
  rw [← leafV_step hq hlf hv]
  exact ⟨fun h => ⟨q, hq, h⟩, fun ⟨sh, h5, h6⟩ => by rw [hq] at h5; cases h5; exact h6⟩

/-- A type that has taken up its line has the values that the declarations of the line accept. -/
theorem eff_step (S : Setup s0) {x : Addr} {l : List Addr} (hl : Line s0 x l) (hsl : s.slices = s0.slices) (he : Eff s0 s x l) (E : Ext) {D : Addr → Prop}
    (hD : ∀ c ∈ l, ∀ y, Refers s0 c y → D y) {P Q : Addr → GoVal → Prop} (hP : Spread s0 D P Q) {v : GoVal} (hv : GoValue v) : Step E s P x v ↔ LineOK E s0 Q l v := by
  obtain ⟨b, hb⟩ := line_base hl
  obtain ⟨l', hl', hd⟩ := S.straight.line x b hb
  cases Line.unique hl' hl
  obtain ⟨q0, q, hq0, hq, hk, heq⟩ := id he
  obtain ⟨hne, hall⟩ := S.lineKind hl hq0
  by_cases hlf : IsLeaf q0
  · rw [eff_leaf he hq0 hlf E P hv, line_leaf hne (fun c hc => by obtain ⟨r, h1, h2⟩ := hall c hc; exact ⟨r, h1, kind_leaf h2.symm hlf⟩) E Q hv]
  rw [← hk] at hall
  cases l with
  | nil => exact absurd rfl hne
  | cons c l =>
  obtain ⟨r, hr, hrk⟩ := hall c (by simp)
  unfold LineOK
  rw [List.head?_cons, Option.bind_some, hr]
  cases q with
  | object f =>
    obtain ⟨g, rfl⟩ := kind_object hrk
    have := object_step S hl (fun c hc => by obtain ⟨r, h1, h2⟩ := hall c hc; obtain ⟨g, rfl⟩ := kind_object h2; exact ⟨g, h1⟩) heq E.reMatch hD hP v
    rw [← this]
    unfold Step
    rw [hq]
  | array f =>
    obtain ⟨g, rfl⟩ := kind_array hrk
    have hk' : ∀ c' ∈ c :: l, ∃ g, s0.shapeAt c' = some (.array g) := fun c hc => by obtain ⟨r, h1, h2⟩ := hall c hc; obtain ⟨g, rfl⟩ := kind_array h2; exact ⟨g, h1⟩
    have := array_step (H := E.hash) hd hne hk' heq (P := P) (v := v)
    have e : Step E s P x v ↔ ArrayOK E.hash P f v := by unfold Step; rw [hq]
    rw [e, this]
    refine forall₂_congr fun c' hc' => ?_
    obtain ⟨g', hg'⟩ := hk' c' hc'
    rw [arrayAt_eq hg']
    unfold Step
    rw [hg']
    unfold ArrayOK
    refine exists_congr fun li => and_congr_right fun _ => and_congr_right fun _ => and_congr ?_ Iff.rfl
    refine forall_congr' fun y => forall_congr' fun hy => forall₂_congr fun w _ => ?_
    exact hP.self (S.notOver (.items hg' hy)) (hD c' hc' y ⟨_, hg', .items hy⟩)
  | union u e =>
    obtain ⟨u', e', rfl⟩ := kind_union hrk
    obtain ⟨z, ez, h1, h2⟩ := heq
    have e1 : Step E s P x v ↔ ∃ m ∈ s0.slice u, P m v := by unfold Step; rw [hq]; simp only [St.slice, hsl]
    have e2 : Step E s0 Q z v ↔ ∃ m ∈ s0.slice u, Q m v := by unfold Step; rw [h2]
    have e3 : (∃ m ∈ s0.slice u, P m v) ↔ ∃ m ∈ s0.slice u, Q m v :=
      exists_congr fun m => and_congr_right fun hm => hP.self (S.notOver (.member h2 hm)) (hD z (List.mem_of_getLast? h1) m ⟨_, h2, .member hm⟩)
    rw [e1, e3, ← e2]
    exact ⟨fun h => ⟨z, h1, h⟩, fun ⟨z', h3, h4⟩ => by rw [h1] at h3; cases h3; exact h4⟩
  | recursive y => 
    obtain ⟨y', rfl⟩ := kind_recursive hk.symm
    exact absurd hq0 (S.plain x y')
  | _ => exact absurd (kind_leaf hk trivial) hlf

/-! ## The least relation -/

/-- What the declarations accept depends on what their parts accept. -/
theorem step_parts {E : Ext} {P Q : Addr → GoVal → Prop} {c : Addr} (hr : ∀ y, s0.shapeAt c ≠ some (.recursive y))
    (hPQ : ∀ y w, Refers s0 c y → GoValue w → P y w → Q y w) {v : GoVal} (hv : GoValue v) (h : Step E s0 P c v) : Step E s0 Q c v := by
  unfold Step at h ⊢
  cases hs : s0.shapeAt c with
  | none => rw [hs] at h; exact h
  | some q =>
    rw [hs] at h
    cases q with
    | object f =>
      obtain ⟨m, rfl, h2, h3, h4, h5⟩ := h
      refine ⟨m, rfl, h2, h3, fun k x p hk hp => hPQ _ _ ⟨_, hs, .property hp.mem⟩ (GoRaml.GoValue.map_inv hv _ hk) (h4 k x p hk hp), fun k x hk hq => ⟨(h5 k x hk hq).1, ?_⟩⟩
      rcases (h5 k x hk hq).2 with h | ⟨p, k1, k2, k3⟩
      · exact .inl h
      · exact .inr ⟨p, k1, k2, hPQ _ _ ⟨_, hs, .pattern k1⟩ (GoRaml.GoValue.map_inv hv _ hk) k3⟩
    | array f =>
      obtain ⟨l, rfl, h2, h3, h4⟩ := h
      exact ⟨l, rfl, h2, fun a ha x hx => hPQ _ _ ⟨_, hs, .items ha⟩ (GoRaml.GoValue.arr_inv hv _ hx) (h3 a ha x hx), h4⟩
    | union u e =>
      obtain ⟨m, h1, h2⟩ := h
      exact ⟨m, h1, hPQ _ _ ⟨_, hs, .member h1⟩ hv h2⟩
    | recursive y => exact absurd hs (hr y)
    | _ => exact h

theorem line_parts (S : Setup s0) {E : Ext} {P Q : Addr → GoVal → Prop} {l : List Addr} (hPQ : ∀ c ∈ l, ∀ y w, Refers s0 c y → GoValue w → P y w → Q y w) {v : GoVal}
    (hv : GoValue v) (h : LineOK E s0 P l v) : LineOK E s0 Q l v := by
  unfold LineOK at h ⊢
  cases hs : l.head?.bind s0.shapeAt with
  | none =>
    rw [hs] at h
    exact fun c hc => step_parts (S.plain c) (hPQ c hc) hv (h c hc)
  | some q =>
    rw [hs] at h
    cases q with
    | object f =>
      obtain ⟨m, rfl, h2, h3, h4, h5⟩ := h
      refine ⟨m, rfl, h2, h3, fun c hc g hg k x p hk hp => hPQ c hc _ _ ⟨_, hg, .property hp.mem⟩ (GoRaml.GoValue.map_inv hv _ hk) (h4 c hc g hg k x p hk hp),
        fun k x hk hq => ⟨(h5 k x hk hq).1, ?_⟩⟩
      rcases (h5 k x hk hq).2 with h | ⟨c, hc, g, hg, p, k1, k2, k3⟩
      · exact .inl h
      · exact .inr ⟨c, hc, g, hg, p, k1, k2, hPQ c hc _ _ ⟨_, hg, .pattern k1⟩ (GoRaml.GoValue.map_inv hv _ hk) k3⟩
    | union u e =>
      obtain ⟨c, h1, h2⟩ := h
      exact ⟨c, h1, step_parts (S.plain c) (hPQ c (List.mem_of_getLast? h1)) hv h2⟩
    | _ => exact fun c hc => step_parts (S.plain c) (hPQ c hc) hv (h c hc)

/-- The declarations of the covered types. -/
def Cov (s0 : St) (x : Addr) (L : List Addr) : Prop := ∀ d, d ∈ L ↔ ∃ y ly, Covers s0 x y ∧ Line s0 y ly ∧ d ∈ ly

theorem scalar_leaf {y : Addr} (h : Scalar s0 y) {l : List Addr} (hl : Line s0 y l) : ∀ c ∈ l, ∃ q, s0.shapeAt c = some q ∧ IsLeaf q := fun c hc => by
  obtain ⟨l', h1, h2⟩ := h
  cases Line.unique h1 hl
  obtain ⟨q, h3, h4⟩ := h2 c hc
  exact ⟨q, h3, (Kin.Restricting.plain h4).1⟩

theorem line_ne {y : Addr} {l : List Addr} (hl : Line s0 y l) : l ≠ [] := by
  induction hl with
  | root => simp
  | «alias» _ _ _ ih => exact ih
  | on => simp

/-- A scalar type has the values that its declarations accept. -/
theorem means_leaf {E : Ext} {y : Addr} (h : Scalar s0 y) {l : List Addr} (hl : Line s0 y l) {v : GoVal} (hv : GoValue v)
    (hm : ∀ c ∈ l, ∃ sh, s0.shapeAt c = some sh ∧ LeafV E sh v) : Means E s0 y v := fun P hP =>
  hP y v l hl ((line_leaf (line_ne hl) (scalar_leaf h hl) E P hv).2 hm)

/-- If the types `D` have taken up their lines and all their parts are among them, they have the values that they and the types they override mean. -/
theorem valid_means (S : Setup s0) (hsl : s.slices = s0.slices) {D : Addr → Prop}
    (hD : ∀ x, D x → ∃ l, Line s0 x l ∧ (∀ c ∈ l, ∀ y, Refers s0 c y → D y) ∧ ((∀ a z, ¬ Over s0 a x z) → Eff s0 s x l) ∧
      ∀ a z, Over s0 a x z → ∃ L, Cov s0 x L ∧ Eff s0 s x L) (E : Ext) {x : Addr} (hx : D x) (hno : ∀ a z, ¬ Over s0 a x z) {v : GoVal} (hv : GoValue v) :
    Valid E s x v ↔ Means E s0 x v := by
  have leaf : ∀ {a x z y}, D x → Over s0 a x z → Covers s0 x y → ∃ q0, s0.shapeAt x = some q0 ∧ IsLeaf q0 ∧ Scalar s0 y ∧ ∃ ly, Line s0 y ly := fun {a x z y} hx ho hy => by
    have hsx : Scalar s0 x := (S.overScalar ho (.refl _)).1
    have hsy : Scalar s0 y := by
      cases hy with
      | refl => exact hsx
      | step h1 h2 => exact (S.overScalar h1 h2).2.1
    obtain ⟨lx, hlx, hcx⟩ := hsx
    obtain ⟨ly, hly, hcy⟩ := hsy
    obtain ⟨b, hb⟩ := line_base hlx
    obtain ⟨q0, _, hq0⟩ := S.shapeAt hb
    obtain ⟨hne, hall⟩ := S.lineKind hlx hq0
    obtain ⟨c, hc⟩ := List.exists_mem_of_ne_nil _ hne
    obtain ⟨r, h1, h2⟩ := hall c hc
    obtain ⟨q, h3, h4⟩ := hcx c hc
    rw [h1] at h3
    cases h3
    exact ⟨q0, hq0, kind_leaf h2 (Kin.Restricting.plain h4).1, ⟨ly, hly, hcy⟩, ly, hly⟩
  constructor
  · intro h
    refine h (fun x v => D x → ∀ y, Covers s0 x y → GoValue v → Means E s0 y v) (fun x v hs hx y hy hv => ?_) hx x (.refl x) hv
    obtain ⟨l, hl, hr, he, ho⟩ := hD x hx
    by_cases hov : ∃ a z, Over s0 a x z
    · obtain ⟨a, z, hov⟩ := hov
      obtain ⟨L, hL, heL⟩ := ho a z hov
      obtain ⟨q0, hq0, hlf, hsy, ly, hly⟩ := leaf hx hov hy
      have := (eff_leaf heL hq0 hlf E _ hv).1 hs
      exact means_leaf hsy hly hv fun c hc => this c ((hL c).2 ⟨y, ly, hy, hly, hc⟩)
    · have hno : ∀ a z, ¬ Over s0 a x z := fun a z h => hov ⟨a, z, h⟩
      rw [covers_self hno hy]
      have h1 := (eff_step S hl hsl (he hno) E hr (P := fun x v => D x → ∀ y, Covers s0 x y → GoValue v → Means E s0 y v) (Q := fun y v => GoValue v → Means E s0 y v)
        (fun x hx w => ⟨fun h => h hx, fun h _ => h⟩) hv).1 hs
      intro P hP
      exact hP x v l hl (line_parts S (fun c hc y w hy hw h => h hw P hP) hv h1)
  · intro h
    have key := h (fun y v => GoValue v → (Scalar s0 y → ∀ ly, Line s0 y ly → ∀ c ∈ ly, ∃ sh, s0.shapeAt c = some sh ∧ LeafV E sh v) ∧
      ((∀ a z, ¬ Over s0 a y z) → D y → Valid E s y v)) (fun x v l hl hs hv => ⟨fun hsc ly hly => ?_, fun hno hx => ?_⟩) hv
    · exact key.2 hno hx
    · cases Line.unique hl hly
      exact (line_leaf (line_ne hl) (scalar_leaf hsc hl) E _ hv).1 hs
    · obtain ⟨l', hl', hr, he, _⟩ := hD x hx
      cases Line.unique hl' hl
      rw [valid_iff_step]
      have h1 := (eff_step S hl hsl (he hno) E hr
        (P := fun x v => D x ∧ ∀ y, Covers s0 x y → GoValue v ∧ (Scalar s0 y → ∀ ly, Line s0 y ly → ∀ c ∈ ly, ∃ sh, s0.shapeAt c = some sh ∧ LeafV E sh v) ∧
          ((∀ a z, ¬ Over s0 a y z) → D y → Valid E s y v)) (fun x hx w => ⟨fun h => h.2, fun h => ⟨hx, h⟩⟩) hv).2
        (line_parts S (fun c hc y w hy hw h => ⟨hw, h hw⟩) hv hs)
      refine Step.mono (fun y w ⟨hy, hw⟩ => ?_) h1
      by_cases hov : ∃ a z, Over s0 a y z
      · obtain ⟨a, z, hov⟩ := hov
        obtain ⟨_, _, _, _, ho⟩ := hD y hy
        obtain ⟨L, hL, heL⟩ := ho a z hov
        obtain ⟨q0, hq0, hlf, _⟩ := leaf hy hov (.refl _)
        rw [valid_iff_step, eff_leaf heL hq0 hlf E _ (hw y (.refl y)).1]
        intro d hd
        obtain ⟨y', ly, k1, k2, k3⟩ := (hL d).1 hd
        obtain ⟨_, _, _, hsy, _⟩ := leaf hy hov k1
        exact (hw y' k1).2.1 hsy ly k2 d k3
      · exact (hw y (.refl y)).2.2 (fun a z h => hov ⟨a, z, h⟩) hy

end GoRaml.Mean
