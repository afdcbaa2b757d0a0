import Verif.Lemmas.Schema

/-!
# References in converted schemas
-/

namespace GoRaml

open Spec

theorem NodeOf.sub {w : Wrap} {h : St} {P : Option JS → Addr → Prop} {b : Base} {x : JS} (hx : NodeOf w h P b x) :
    x.core = baseCore b ∧ x.definitions = [] ∧ x.allOf = [] ∧ x.anyOf = [] ∧ x.oneOf = [] ∧ x.not_ = none ∧ x.if_ = none ∧ x.then_ = none ∧
    x.else_ = none ∧ x.items = none ∧ x.propertyNames = none ∧ x.properties = none ∧ x.patternProperties = none ∧
    ∀ m k t, x.facetDefinitions = some m → (k, some t) ∈ m → ∃ y, P (some t) y := by
  rcases hx with ⟨-, rfl⟩ | ⟨-, fds, h1, rfl⟩
  · exact ⟨rfl, rfl, rfl, rfl, rfl, rfl, rfl, rfl, rfl, rfl, rfl, rfl, rfl, fun m k t hm _ => by cases hm⟩
  · refine ⟨rfl, rfl, rfl, rfl, rfl, rfl, rfl, rfl, rfl, rfl, rfl, rfl, rfl, fun m k t hm ht => ?_⟩
    dsimp only at hm
    split at hm
    · cases hm
    · cases hm
      obtain ⟨i, hi⟩ := List.mem_iff_getElem.1 ht
      obtain ⟨hi, e⟩ := hi
      have := List.Forall₂.get h1 (i := i) (by rw [List.Forall₂.length_eq h1]; exact hi) hi
      simp only [List.get_eq_getElem, e] at this
      exact ⟨_, this.2⟩

theorem forall₂_right {α β : Type} {R : α → β → Prop} {l : List α} {m : List β} (hl : List.Forall₂ R l m) :
    ∀ y ∈ m, ∃ x ∈ l, R x y := by
  induction hl with
  | nil => simp
  | cons h1 _ ih =>
    intro y hy
    rcases List.mem_cons.1 hy with rfl | hy
    · exact ⟨_, by simp, h1⟩
    · obtain ⟨x, hx, hr⟩ := ih y hy
      exact ⟨x, by simp [hx], hr⟩

theorem forall₂_left {α β : Type} {R : α → β → Prop} {l : List α} {m : List β} (hl : List.Forall₂ R l m) :
    ∀ x ∈ l, ∃ y ∈ m, R x y := by
  induction hl with
  | nil => simp
  | cons h1 _ ih =>
    intro y hy
    rcases List.mem_cons.1 hy with rfl | hy
    · exact ⟨_, by simp, h1⟩
    · obtain ⟨x, hx, hr⟩ := ih y hy
      exact ⟨x, by simp [hx], hr⟩

/-- A schema with the sub-schemas of a node. -/
theorem sub_node {w : Wrap} {h : St} {P : Option JS → Addr → Prop} {b : Base} {x s t : JS} (hst : SubSchema s t) (hx : NodeOf w h P b x)
    (e : s.definitions = x.definitions ∧ s.allOf = x.allOf ∧ s.oneOf = x.oneOf ∧ s.not_ = x.not_ ∧
      s.if_ = x.if_ ∧ s.then_ = x.then_ ∧ s.else_ = x.else_ ∧ s.propertyNames = x.propertyNames ∧ s.facetDefinitions = x.facetDefinitions)
    (han : ∀ t, some t ∈ s.anyOf → ∃ y, P (some t) y) (hit : ∀ t, s.items = some t → ∃ y, P (some t) y)
    (hps : ∀ m k t, s.properties = some m → (k, some t) ∈ m → ∃ y, P (some t) y)
    (hpps : ∀ m k t, s.patternProperties = some m → (k, some t) ∈ m → ∃ y, P (some t) y) : ∃ y, P (some t) y := by
  obtain ⟨-, x1, x2, -, x4, x5, x6, x7, x8, -, x10, -, -, x13⟩ := hx.sub
  obtain ⟨e1, e2, e3, e4, e5, e6, e7, e8, e9⟩ := e
  cases hst with
  | definitions hm => rw [e1, x1] at hm; cases hm
  | allOf hm => rw [e2, x2] at hm; cases hm
  | anyOf hm => exact han _ hm
  | oneOf hm => rw [e3, x4] at hm; cases hm
  | not_ hm => rw [e4, x5] at hm; cases hm
  | if_ hm => rw [e5, x6] at hm; cases hm
  | then_ hm => rw [e6, x7] at hm; cases hm
  | else_ hm => rw [e7, x8] at hm; cases hm
  | items hm => exact hit _ hm
  | propertyNames hm => rw [e8, x10] at hm; cases hm
  | properties hm hk => exact hps _ _ _ hm hk
  | patternProperties hm hk => exact hpps _ _ _ hm hk
  | facetDefinitions hm hk => rw [e9] at hm; exact x13 _ _ _ hm hk

/-- A schema that only changes flat keywords of a node. -/
theorem sub_flat {w : Wrap} {h : St} {P : Option JS → Addr → Prop} {b : Base} {x t : JS} {c : JSCore} (hx : NodeOf w h P b x)
    (hst : SubSchema { x with core := c } t) : ∃ y, P (some t) y := by
  obtain ⟨-, -, -, x3, -, -, -, -, -, x9, -, x11, x12, -⟩ := hx.sub
  refine sub_node hst hx ⟨rfl, rfl, rfl, rfl, rfl, rfl, rfl, rfl, rfl⟩ ?_ ?_ ?_ ?_
  · intro t ht; dsimp only at ht; rw [x3] at ht; cases ht
  · intro t ht; dsimp only at ht; rw [x9] at ht; cases ht
  · intro m k t ht; dsimp only at ht; rw [x11] at ht; cases ht
  · intro m k t ht; dsimp only at ht; rw [x12] at ht; cases ht

theorem Level.parts {w : Wrap} {h : St} {P : Option JS → Addr → Prop} {K : List String} {b : Base} {s : Shape} {r : Option JS}
    (hl : Level w h P K b (some s) r) (hu : ∀ f, s ≠ .unknown f) (hj : ∀ raw sc, s ≠ .json raw sc) :
    ∃ x, r = some x ∧ (x.core.ref = "" ∨ ∃ k ∈ K, x.core.ref = refTo k) ∧ ∀ t, SubSchema x t → ∃ y, P (some t) y := by
  have hflat : ∀ {x : JS} {c : JSCore}, NodeOf w h P b x → r = some { x with core := c } → c.ref = x.core.ref →
      ∃ x, r = some x ∧ (x.core.ref = "" ∨ ∃ k ∈ K, x.core.ref = refTo k) ∧ ∀ t, SubSchema x t → ∃ y, P (some t) y := by
    rintro x c hx rfl hr
    exact ⟨_, rfl, Or.inl (by rw [hr, hx.sub.1]; rfl), fun t ht => sub_flat hx ht⟩
  cases s with
  | unknown f => exact absurd rfl (hu f)
  | json raw sc => exact absurd rfl (hj raw sc)
  | recursive hd =>
    obtain ⟨b', h1, h2, rfl⟩ := hl
    refine ⟨_, rfl, Or.inr ⟨_, h2, rfl⟩, fun t ht => ?_⟩
    cases ht <;> contradiction
  | any =>
    obtain ⟨hn, hr⟩ := hl
    cases r with
    | none => exact absurd rfl hr
    | some x =>
      change NodeOf w h P b x at hn
      exact ⟨x, rfl, Or.inl (by rw [hn.sub.1]; rfl), fun t ht => by cases x; exact sub_flat hn ht⟩
  | nil => obtain ⟨x, hx, rfl⟩ := hl; exact hflat hx rfl rfl
  | string f => obtain ⟨x, hx, rfl⟩ := hl; exact hflat hx rfl rfl
  | integer f => obtain ⟨x, hx, rfl⟩ := hl; exact hflat hx rfl rfl
  | number f => obtain ⟨x, hx, rfl⟩ := hl; exact hflat hx rfl rfl
  | boolean f => obtain ⟨x, hx, rfl⟩ := hl; exact hflat hx rfl rfl
  | datetime f =>
    obtain ⟨x, hx, rfl⟩ := hl
    unfold datetimeSchema
    split <;> exact ⟨_, rfl, Or.inl (by show x.core.ref = ""; rw [hx.sub.1]; rfl), fun t ht => sub_flat hx ht⟩
  | datetimeOnly => obtain ⟨x, hx, rfl⟩ := hl; exact hflat hx rfl rfl
  | dateOnly => obtain ⟨x, hx, rfl⟩ := hl; exact hflat hx rfl rfl
  | timeOnly => obtain ⟨x, hx, rfl⟩ := hl; exact hflat hx rfl rfl
  | file f =>
    obtain ⟨x, y, hx, hf, rfl⟩ := hl
    have : ∃ c : JSCore, y = { x with core := c } ∧ c.ref = x.core.ref := by
      unfold fileSchema at hf
      split at hf <;> first | (cases hf; exact ⟨_, rfl, rfl⟩) | cases hf
    obtain ⟨c, rfl, hr⟩ := this
    exact ⟨_, rfl, Or.inl (by rw [hr, hx.sub.1]; rfl), fun t ht => sub_flat hx ht⟩
  | object f =>
    obtain ⟨x, ps, pps, hx, rfl, h1, h2, h3, h4⟩ := hl
    refine ⟨_, rfl, Or.inl (by show x.core.ref = ""; rw [hx.sub.1]; rfl), fun t ht => ?_⟩
    obtain ⟨-, -, -, x3, -, -, -, -, -, x9, -, -, -, -⟩ := hx.sub
    refine sub_node ht hx ⟨rfl, rfl, rfl, rfl, rfl, rfl, rfl, rfl, rfl⟩ ?_ ?_ ?_ ?_
    · intro t ht; change some t ∈ x.anyOf at ht; rw [x3] at ht; cases ht
    · intro t ht; change x.items = some t at ht; rw [x9] at ht; cases ht
    · intro m k t hm ht
      change ps = some m at hm
      cases hp : f.properties with
      | none => rw [h1 hp] at hm; cases hm
      | some i =>
        obtain ⟨l, e1, e2⟩ := h2 (by rw [hp]; simp)
        rw [e1] at hm; cases hm
        obtain ⟨e, -, -, he⟩ := forall₂_right e2 _ ht
        exact ⟨_, he⟩
    · intro m k t hm ht
      change pps = some m at hm
      cases hp : f.patternProperties with
      | none => rw [h3 hp] at hm; cases hm
      | some i =>
        obtain ⟨l, e1, e2⟩ := h4 (by rw [hp]; simp)
        rw [e1] at hm; cases hm
        obtain ⟨e, -, -, he⟩ := forall₂_right e2 _ ht
        exact ⟨_, he⟩
  | array f =>
    obtain ⟨x, it, hx, rfl, h1, h2⟩ := hl
    refine ⟨_, rfl, Or.inl (by show x.core.ref = ""; rw [hx.sub.1]; rfl), fun t ht => ?_⟩
    obtain ⟨-, -, -, x3, -, -, -, -, -, -, -, x11, x12, -⟩ := hx.sub
    refine sub_node ht hx ⟨rfl, rfl, rfl, rfl, rfl, rfl, rfl, rfl, rfl⟩ ?_ ?_ ?_ ?_
    · intro t ht; change some t ∈ x.anyOf at ht; rw [x3] at ht; cases ht
    · intro t ht
      change it = some t at ht
      cases hi : f.items with
      | none => rw [h1 hi] at ht; cases ht
      | some i => exact ⟨i, by rw [← ht]; exact h2 i hi⟩
    · intro m k t ht; change x.properties = _ at ht; rw [x11] at ht; cases ht
    · intro m k t ht; change x.patternProperties = _ at ht; rw [x12] at ht; cases ht
  | union m e =>
    obtain ⟨x, l, hx, rfl, h1⟩ := hl
    refine ⟨_, rfl, Or.inl (by show x.core.ref = ""; rw [hx.sub.1]; rfl), fun t ht => ?_⟩
    obtain ⟨-, -, -, -, -, -, -, -, -, x9, -, x11, x12, -⟩ := hx.sub
    refine sub_node ht hx ⟨rfl, rfl, rfl, rfl, rfl, rfl, rfl, rfl, rfl⟩ ?_ ?_ ?_ ?_
    · intro t ht
      obtain ⟨y, -, hy⟩ := forall₂_right h1 _ ht
      exact ⟨y, hy⟩
    · intro t ht; change x.items = some t at ht; rw [x9] at ht; cases ht
    · intro m k t ht; change x.properties = _ at ht; rw [x11] at ht; cases ht
    · intro m k t ht; change x.patternProperties = _ at ht; rw [x12] at ht; cases ht

theorem Made.parts {w : Wrap} {h : St} {a0 : Addr} (hne : NoEmbedded h a0) {K : List String} {r : Option JS} {y : Addr}
    (hm : Made w h a0 K r y) :
    ∃ x, r = some x ∧ (x.core.ref = "" ∨ ∃ k ∈ K, x.core.ref = refTo k) ∧ ∀ t, SubSchema x t → ∃ y, Made w h a0 K (some t) y := by
  obtain ⟨b, K', hb, hK, hl⟩ := hm.level
  obtain ⟨s, hs, h1, h2⟩ := hne y hm.1
  have hbs : b.shape = some s := by simpa [St.shapeAt, hb] using hs
  rw [hbs] at hl
  obtain ⟨x, e1, e2, e3⟩ := hl.parts h1 h2
  refine ⟨x, e1, ?_, fun t ht => ?_⟩
  · rcases e2 with e2 | ⟨k, hk, e2⟩
    · exact Or.inl e2
    · exact Or.inr ⟨k, hK hk, e2⟩
  · obtain ⟨y, hy⟩ := e3 t ht
    exact ⟨y, made_mono w h a0 _ _ _ _ hK hy⟩

theorem made_refs {w : Wrap} {h : St} {a0 : Addr} (hne : NoEmbedded h a0) {K : List String} {s t : JS} (ho : Occurs s t) :
    ∀ y, Made w h a0 K (some s) y → t.core.ref ≠ "" → ∃ k ∈ K, t.core.ref = refTo k := by
  induction ho with
  | refl s =>
    intro y hm hr
    obtain ⟨x, e1, e2, -⟩ := hm.parts hne
    cases e1
    rcases e2 with e2 | e2
    · exact absurd e2 hr
    · exact e2
  | step hs _ ih =>
    intro y hm
    obtain ⟨x, e1, -, e3⟩ := hm.parts hne
    cases e1
    obtain ⟨y', hy'⟩ := e3 _ hs
    exact ih y' hy'

theorem converted_refs {w : Wrap} {h : St} {a : Addr} {b : Base} {D : Defs} (hne : NoEmbedded h a) (hc : Converted w h a b D) :
    RefsResolve D (rootSchema b.name D) := by
  have hdef : ∀ k ∈ D.keys, ∃ d, (k, some d) ∈ D := by
    intro k hk
    obtain ⟨⟨k', x⟩, hx, rfl⟩ := List.mem_map.1 hk
    obtain ⟨hd, b', -, -, -, hm⟩ := hc.entries _ _ hx
    obtain ⟨d, rfl, -⟩ := hm.parts hne
    exact ⟨d, hx⟩
  intro t ht hr
  cases ht with
  | refl =>
    obtain ⟨d, hd⟩ := hdef _ hc.root
    exact ⟨b.name, d, rfl, hd⟩
  | step hs ho =>
    cases hs with
    | definitions hm =>
      obtain ⟨hd, b', -, -, -, hmd⟩ := hc.entries _ _ hm
      obtain ⟨k, hk, e⟩ := made_refs hne ho hd hmd hr
      obtain ⟨d, hd⟩ := hdef k hk
      exact ⟨k, d, e, hd⟩
    | allOf hm => cases hm
    | anyOf hm => cases hm
    | oneOf hm => cases hm
    | not_ hm => cases hm
    | if_ hm => cases hm
    | then_ hm => cases hm
    | else_ hm => cases hm
    | items hm => cases hm
    | propertyNames hm => cases hm
    | properties hm => cases hm
    | patternProperties hm => cases hm
    | facetDefinitions hm => cases hm

end GoRaml
