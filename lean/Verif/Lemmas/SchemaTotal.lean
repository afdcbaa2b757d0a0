import Verif.Lemmas.Schema

/-!
# Conversion comes to an end
-/

namespace GoRaml

open Spec

/-- With enough fuel the computation returns a fixed result, which satisfies `Q`. -/
def Halts {σ α : Type} (m : Nat → M σ α) (s : σ) (Q : α → σ → Prop) : Prop :=
  ∃ n r s', (∀ k, n ≤ k → m k s = (.ok r, s')) ∧ Q r s'

section
variable {σ α β : Type}

theorem Halts.bind {m : Nat → M σ α} {f : Nat → α → M σ β} {s : σ} {Q : β → σ → Prop}
    (hm : Halts m s fun r s' => Halts (fun k => f k r) s' Q) : Halts (fun k => M.bind (m k) (f k)) s Q := by
  obtain ⟨n, r, s', h1, n', r', s'', h2, h3⟩ := hm
  exact ⟨max n n', r', s'', fun k hk => by
    show M.bind (m k) (f k) s = _
    rw [M.bind_of_ok (h1 k (by omega))]; exact h2 k (by omega), h3⟩

theorem Halts.const {m : M σ α} {s s' : σ} {r : α} {Q : α → σ → Prop} (hm : m s = (.ok r, s')) (hq : Q r s') : Halts (fun _ => m) s Q :=
  ⟨0, r, s', fun _ _ => hm, hq⟩

theorem Halts.imp {m : Nat → M σ α} {s : σ} {Q Q' : α → σ → Prop} (hm : Halts m s Q) (hq : ∀ r s', Q r s' → Q' r s') : Halts m s Q' := by
  obtain ⟨n, r, s', h1, h2⟩ := hm
  exact ⟨n, r, s', h1, hq _ _ h2⟩

theorem Halts.succ {m : Nat → M σ α} {s : σ} {Q : α → σ → Prop} (hm : Halts (fun k => m (k + 1)) s Q) : Halts m s Q := by
  obtain ⟨n, r, s', h1, h2⟩ := hm
  refine ⟨n + 1, r, s', fun k hk => ?_, h2⟩
  obtain ⟨k, rfl⟩ : ∃ j, k = j + 1 := ⟨k - 1, by omega⟩
  exact h1 k (by omega)

theorem Halts.collect {I : σ → Prop} {f : Nat → α → M σ β} : ∀ {l : List α}, (∀ x ∈ l, ∀ s, I s → Halts (fun k => f k x) s fun _ s' => I s') →
    ∀ {s}, I s → Halts (fun k => M.collect (f k) l) s fun _ s' => I s'
  | [], _, s, hs => .const rfl hs
  | x :: l, hf, s, hs => by
    show Halts (fun k => M.bind (f k x) fun y => M.bind (M.collect (f k) l) fun ys => M.ret (y :: ys)) s _
    refine Halts.bind ((hf x (by simp) s hs).imp fun r s' h1 => ?_)
    refine Halts.bind ((Halts.collect (fun y hy => hf y (by simp [hy])) h1).imp fun r' s'' h2 => ?_)
    exact .const rfl h2

end

/-- How many types have a name without definition. -/
def undefinedNames (h : St) (D : Defs) : Nat := h.bases.countP fun b => decide (b.name ∉ D.keys)

theorem undefinedNames_mono {h : St} {D D' : Defs} (hk : D.keys ⊆ D'.keys) : undefinedNames h D' ≤ undefinedNames h D := by
  refine List.countP_mono_left fun b _ hb => ?_
  simp only [decide_eq_true_eq] at hb ⊢
  exact fun hc => hb (hk hc)

theorem undefinedNames_set {h : St} {D : Defs} {a : Addr} {b : Base} (hb : h.base a = some b) (hn : b.name ∉ D.keys) (x : Option JS) :
    undefinedNames h (OMap.set D b.name x) < undefinedNames h D := by
  have hkeys : ∀ k, k ∈ Defs.keys (OMap.set D b.name x) ↔ k = b.name ∨ k ∈ D.keys := by
    intro k
    show k ∈ (OMap.set D b.name x).map (·.1) ↔ _
    rw [OMap.keys_set, if_neg hn, List.mem_append, List.mem_singleton, or_comm]
  have hmem : b ∈ h.bases := List.mem_of_getElem? hb
  unfold undefinedNames
  generalize h.bases = l at hmem
  induction l with
  | nil => cases hmem
  | cons c l ih =>
    simp only [List.countP_cons]
    have hle : List.countP (fun b_1 => decide (b_1.name ∉ Defs.keys (OMap.set D b.name x))) l ≤
        List.countP (fun b => decide (b.name ∉ D.keys)) l := by
      refine List.countP_mono_left fun b' _ hb' => ?_
      simp only [decide_eq_true_eq] at hb' ⊢
      exact fun hc => hb' ((hkeys _).2 (Or.inr hc))
    rcases List.mem_cons.1 hmem with rfl | hm
    · have e1 : decide (b.name ∉ D.keys) = true := decide_eq_true hn
      have e2 : decide (b.name ∉ Defs.keys (OMap.set D b.name x)) = false := decide_eq_false (not_not_intro ((hkeys _).2 (Or.inl rfl)))
      rw [e1, e2]
      simp only [if_true, Bool.false_eq_true, if_false]
      omega
    · have := ih hm
      have : (if decide (c.name ∉ Defs.keys (OMap.set D b.name x)) = true then 1 else 0) ≤ if decide (c.name ∉ D.keys) = true then 1 else 0 := by
        by_cases hc : c.name ∈ D.keys
        · have e2 : decide (c.name ∉ Defs.keys (OMap.set D b.name x)) = false := decide_eq_false (not_not_intro ((hkeys _).2 (Or.inr hc)))
          rw [e2]; simp
        · rw [decide_eq_true hc]
          simp only [if_true]
          split <;> omega
      omega

section
variable {w : Wrap} {h : St}

theorem entries_halt {I : Defs → Prop} {rec : Nat → Addr → M Defs (Option JS)} {l : List (String × Addr)}
    (hr : ∀ e ∈ l, ∀ D, I D → Halts (fun k => rec k e.2) D fun _ D' => I D') {D : Defs} (hD : I D) :
    Halts (fun k => M.collect (visitEntry (rec k)) l) D fun _ D' => I D' :=
  Halts.collect (f := fun k => visitEntry (rec k)) (fun e he D hD => Halts.bind ((hr e he D hD).imp fun s D' h1 => .const (r := (e.1, s)) rfl h1)) hD

theorem makeSchema_halts (hw : w ≠ .unset) {I : Defs → Prop} {rec : Nat → Addr → M Defs (Option JS)} {b : Base}
    (hr : ∀ e ∈ h.props b.facetDefs, ∀ D, I D → Halts (fun k => rec k e.2.base) D fun _ D' => I D') {D : Defs} (hD : I D) :
    Halts (fun k => makeSchema w (rec k) h b) D fun _ D' => I D' := by
  cases w with
  | unset => exact absurd rfl hw
  | plain => exact .const rfl hD
  | raml =>
    refine Halts.bind ((entries_halt (fun e he D hD => ?_) hD).imp fun _ _ h1 => .const rfl h1)
    obtain ⟨p, hp, rfl⟩ := List.mem_map.1 he
    exact hr p hp D hD

/-- One level, if the recursive calls end. -/
theorem visitShape_halts (hw : w ≠ .unset) {I : Defs → Prop} {rec : Nat → Addr → M Defs (Option JS)} {y : Addr} {b : Base} {s : Shape}
    (hb : h.base y = some b) (hs : b.shape = some s) (hwr : Writable h s) (hr : ∀ z, Component h y z → ∀ D, I D → Halts (fun k => rec k z) D fun _ D' => I D')
    {D : Defs} (hD : I D) (hrec : ∀ hd, s = .recursive hd → Halts (fun k => visitRecursive w (rec k) h hd) D fun _ D' => I D') :
    Halts (fun k => visitShape w (rec k) h b b.shape) D fun _ D' => I D' := by
  have hnode : Halts (fun k => makeSchema w (rec k) h b) D fun _ D' => I D' :=
    makeSchema_halts hw (fun e he D hD => hr _ ⟨b, hb, Or.inr ⟨e, he, rfl⟩⟩ D hD) hD
  have hedge : ∀ z, ShapeEdge h s z → ∀ D, I D → Halts (fun k => rec k z) D fun _ D' => I D' := fun z hz => hr z ⟨b, hb, Or.inl ⟨s, hs, hz⟩⟩
  have hpure : ∀ g : JS → JS, Halts (fun k => (makeSchema w (rec k) h b).bind fun x => M.ret (some (g x))) D fun _ D' => I D' :=
    fun g => Halts.bind (hnode.imp fun _ _ h1 => .const rfl h1)
  have hlift : ∀ g : JS → Out JS, (∀ x, ∃ z, g x = .ok z) →
      Halts (fun k => (makeSchema w (rec k) h b).bind fun x => M.bind (M.lift (g x)) fun z => M.ret (some z)) D fun _ D' => I D' := by
    intro g hg
    refine Halts.bind (hnode.imp fun x D' h1 => ?_)
    obtain ⟨z, hz⟩ := hg x
    exact Halts.bind (.const (show M.lift (g x) D' = (.ok z, D') by rw [hz]; rfl) (.const rfl h1))
  rw [hs]
  cases s with
  | unknown f => exact .const rfl hD
  | recursive hd => exact Halts.bind ((hrec hd rfl).imp fun _ _ h1 => .const rfl h1)
  | object f =>
    refine Halts.bind (hnode.imp fun x D1 h1 => Halts.bind (Halts.imp ?_ fun _ _ h2 => .const rfl h2))
    refine Halts.bind (Halts.imp (Q := fun _ D' => I D') ?_ fun ps D2 h2 => Halts.bind (Halts.imp (Q := fun _ D' => I D') ?_ fun _ _ h3 => .const rfl h3))
    · cases hp : f.properties with
      | none => exact .const rfl h1
      | some i =>
        refine Halts.bind ((entries_halt (fun e he D hD => ?_) h1).imp fun _ _ h2 => .const rfl h2)
        obtain ⟨p, hp', rfl⟩ := List.mem_map.1 he
        exact hedge _ (.property (f := f) (by rw [hp]; exact hp')) D hD
    · cases hp : f.patternProperties with
      | none => exact .const rfl h2
      | some i =>
        refine Halts.bind ((Halts.collect (fun e he D hD => ?_) h2).imp fun _ _ h3 => .const rfl h3)
        have he' : e ∈ h.patProps f.patternProperties := by rw [hp]; exact he
        have ht : ∃ t, trimSlashes e.1 = .ok t := by
          unfold trimSlashes
          rw [if_neg (by have := hwr e he'; omega)]
          exact ⟨_, rfl⟩
        obtain ⟨t, ht⟩ := ht
        refine Halts.bind (.const (show M.lift (trimSlashes e.1) D = (.ok t, D) by rw [ht]; rfl) ?_)
        exact Halts.bind ((hedge _ (.pattern he') D hD).imp fun _ _ h1 => .const rfl h1)
  | array f =>
    refine Halts.bind (hnode.imp fun x D1 h1 => Halts.bind (Halts.imp ?_ fun _ _ h2 => .const rfl h2))
    refine Halts.bind (Halts.imp (Q := fun _ D' => I D') ?_ fun it D2 h2 => .const rfl h2)
    cases hi : f.items with
    | none => exact .const rfl h1
    | some i => exact hedge _ (.items hi) D1 h1
  | union m e =>
    refine Halts.bind (hnode.imp fun x D1 h1 => Halts.bind (Halts.imp ?_ fun _ _ h2 => .const rfl h2))
    refine Halts.bind (Halts.imp (Q := fun _ D' => I D') ?_ fun it D2 h2 => .const rfl h2)
    exact Halts.collect (fun z hz D hD => hedge _ (.member hz) D hD) h1
  | any => exact hpure id
  | nil => exact hpure (fun x => { x with core := { x.core with type := "null" } })
  | string f => exact hpure (fun x => stringSchema x f)
  | integer f => exact hpure (fun x => integerSchema x f)
  | number f => exact hpure (fun x => numberSchema x f)
  | datetime f => exact hpure (fun x => datetimeSchema x f)
  | datetimeOnly => exact hpure (fun x => datetimeOnlySchema x)
  | dateOnly => exact hpure (fun x => { x with core := { x.core with type := "string", format := "date" } })
  | timeOnly => exact hpure (fun x => { x with core := { x.core with type := "string", format := "time" } })
  | boolean e => exact hpure (fun x => booleanSchema x e)
  | file f =>
    refine hlift (fun x => fileSchema x f) fun x => ?_
    unfold fileSchema
    cases hf : f.fileTypes with
    | none => exact ⟨_, rfl⟩
    | some l =>
      obtain ⟨t, l', rfl⟩ := hwr l hf
      exact ⟨_, rfl⟩
  | json raw sc =>
    refine hlift (fun x => jsonShapeSchema x sc) fun x => ?_
    cases sc with
    | none => exact absurd rfl hwr
    | some sc => exact ⟨_, rfl⟩

/-- Every type the conversion looks at has a shape it can write, and components of components end. -/
structure Ready (h : St) (a : Addr) : Prop where
  shape : ∀ y, SchemaReach h a y → ∃ s, h.shapeAt y = some s ∧ Writable h s
  acc : ∀ y, SchemaReach h a y → Acc (fun z x => Component h x z) y

theorem visit_halts (hw : w ≠ .unset) {a : Addr} (hrd : Ready h a) : ∀ m y, SchemaReach h a y → ∀ D, undefinedNames h D ≤ m →
    Halts (fun k => visit w h k y) D fun _ D' => undefinedNames h D' ≤ m := by
  intro m
  induction m with
  | zero =>
    intro y hy
    induction hrd.acc y hy with
    | intro y _ ih =>
      intro D hD
      obtain ⟨s, hs, hwr⟩ := hrd.shape y hy
      obtain ⟨b, hb, hbs⟩ : ∃ b, h.base y = some b ∧ b.shape = some s := by simpa [St.shapeAt, Option.bind_eq_some_iff] using hs
      refine Halts.succ ?_
      simp only [visit, hb]
      refine visitShape_halts (I := fun D => undefinedNames h D ≤ 0) hw hb hbs hwr (fun z hz => ih z hz (hy.trans (.component hz (.refl _)))) hD ?_
      rintro hd rfl
      have hyd : SchemaReach h a hd := hy.trans (.head hs (.refl _))
      obtain ⟨s', hs', -⟩ := hrd.shape hd hyd
      obtain ⟨b', hb', hbs'⟩ : ∃ b, h.base hd = some b ∧ b.shape = some s' := by simpa [St.shapeAt, Option.bind_eq_some_iff] using hs'
      have hin : b'.name ∈ D.keys := by
        by_contra hn
        have := undefinedNames_set hb' hn none
        omega
      obtain ⟨x, hx⟩ := Defs.mem_keys.1 hin
      have hwn : ∀ k, wrapNode w (visit w h k) h {} none D = (.ok {}, D) := by
        intro k; cases w with
        | unset => exact absurd rfl hw
        | plain => rfl
        | raml => rfl
      refine ⟨0, { core := { ref := refTo b'.name } }, D, fun k _ => ?_, hD⟩
      show visitRecursive w (visit w h k) h hd D = _
      unfold visitRecursive
      rw [M.bind_of_ok (hwn k), hb']
      simp [hbs', M.bind, M.get, hx, M.ret]
  | succ m ihm =>
    intro y hy
    induction hrd.acc y hy with
    | intro y _ ih =>
      intro D hD
      obtain ⟨s, hs, hwr⟩ := hrd.shape y hy
      obtain ⟨b, hb, hbs⟩ : ∃ b, h.base y = some b ∧ b.shape = some s := by simpa [St.shapeAt, Option.bind_eq_some_iff] using hs
      refine Halts.succ ?_
      simp only [visit, hb]
      refine visitShape_halts (I := fun D => undefinedNames h D ≤ m + 1) hw hb hbs hwr (fun z hz => ih z hz (hy.trans (.component hz (.refl _)))) hD ?_
      rintro hd rfl
      have hyd : SchemaReach h a hd := hy.trans (.head hs (.refl _))
      obtain ⟨s', hs', -⟩ := hrd.shape hd hyd
      obtain ⟨b', hb', hbs'⟩ : ∃ b, h.base hd = some b ∧ b.shape = some s' := by simpa [St.shapeAt, Option.bind_eq_some_iff] using hs'
      have hwn : ∀ k, wrapNode w (visit w h k) h {} none D = (.ok {}, D) := by
        intro k; cases w with
        | unset => exact absurd rfl hw
        | plain => rfl
        | raml => rfl
      by_cases hin : b'.name ∈ D.keys
      · obtain ⟨x, hx⟩ := Defs.mem_keys.1 hin
        refine ⟨0, { core := { ref := refTo b'.name } }, D, fun k _ => ?_, hD⟩
        show visitRecursive w (visit w h k) h hd D = _
        unfold visitRecursive
        rw [M.bind_of_ok (hwn k), hb']
        simp [hbs', M.bind, M.get, hx, M.ret]
      · have hx : OMap.get D b'.name = none := by
          cases hg : OMap.get D b'.name with
          | none => rfl
          | some x => exact absurd (Defs.mem_keys.2 ⟨x, hg⟩) hin
        have hlt := undefinedNames_set hb' hin none
        obtain ⟨n, r, D2, h1, h2⟩ := ihm hd hyd (OMap.set D b'.name none) (by omega)
        refine ⟨n, { core := { ref := refTo b'.name } }, OMap.set D2 b'.name r, fun k hk => ?_, ?_⟩
        · show visitRecursive w (visit w h k) h hd D = _
          unfold visitRecursive
          rw [M.bind_of_ok (hwn k), hb']
          simp [hbs', M.bind, M.get, hx, M.ret, M.modify, h1 k hk]
        · refine le_trans (undefinedNames_mono (D := D2) ?_) (by omega)
          intro k hk
          show k ∈ (OMap.set D2 b'.name r).map (·.1)
          rw [OMap.keys_set]
          split
          · exact hk
          · exact List.mem_append_left _ hk

theorem convert_halts (hw : w ≠ .unset) {a : Addr} (hrd : Ready h a) {b : Base} (hb : h.base a = some b) (hu : b.unwrapped = true) :
    ∃ n s, ∀ k, n ≤ k → convert w h k a = .ok s := by
  obtain ⟨n, r, D, h1, -⟩ := visit_halts hw hrd _ a (.refl a) [(b.name, none)] le_rfl
  refine ⟨n, rootSchema b.name (OMap.set D b.name r), fun k hk => ?_⟩
  unfold convert
  rw [hb]
  simp [hu, h1 k hk, hw]

end

end GoRaml
