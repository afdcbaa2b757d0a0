import Verif.Lemmas.LoadMain

/-!
# Resolution keeps the invariant and leaves no reference
-/

namespace GoRaml.Load

open GoRaml GoRaml.Spec

/-- All paths. -/
abbrev allPaths : String → Prop := fun _ => True

/-- A reference left to resolve. -/
def Unk (b : Base) : Prop := ∃ f, b.shape = some (.unknown f)

theorem Unk.not_typed {b : Base} (h : Unk b) : ¬ Typed b := by
  obtain ⟨f, hf⟩ := h
  rintro ⟨sh, h1, _, h2⟩
  rw [hf] at h1; cases h1
  exact h2 rfl

/-- The bases under construction are references or typed. -/
def Calm (P : Perm) (s : St) : Prop := ∀ x, P.b x → ∃ b, s.base x = some b ∧ (Unk b ∨ Typed b)

section
variable {E : Env} {K : Ctl} {c : Calls} {P π : Perm} {s s' : St} {a : Addr} {T : String → Prop}

theorem base_isBase {b : Base} (h : s.base a = some b) : IsBase s a := (List.getElem?_eq_some_iff.1 h).1

theorem isBase_base (h : IsBase s a) : ∃ b, s.base a = some b := ⟨_, List.getElem?_eq_getElem h⟩

theorem Calm.step (h : Calm P s) (g : G True ((only T).addB a) s s') (ha : P.b a → ∃ b, s'.base a = some b ∧ (Unk b ∨ Typed b)) : Calm P s' := by
  intro x hx
  by_cases hxa : x = a
  · subst hxa; exact ha hx
  · obtain ⟨b, hb, h1⟩ := h x hx
    rcases g.base x (base_isBase hb) (fun hp => hp.elim id hxa) with h2 | ⟨_, _, b', h3, h4⟩
    · exact ⟨b, h2.trans hb, h1⟩
    · exact ⟨b', h3, .inr h4⟩

theorem Calm.mono (h : Calm P s) (g : G True (only T) s s') : Calm P s' := by
  intro x hx
  obtain ⟨b, hb, h1⟩ := h x hx
  rcases g.base x (base_isBase hb) id with h2 | ⟨_, _, b', h3, h4⟩
  · exact ⟨b, h2.trans hb, h1⟩
  · exact ⟨b', h3, .inr h4⟩

theorem Calm.add (h : Calm P s) {b : Base} (hb : s.base a = some b) (hu : Unk b ∨ Typed b) : Calm (P.addB a) s := by
  intro x hx
  rcases hx with hx | rfl
  · exact h x hx
  · exact ⟨b, hb, hu⟩

/-- Every base is a reference or typed. -/
theorem Calm.all (h : Calm P s) (hw : W E P s) {x : Addr} {b : Base} (hb : s.base x = some b) : Unk b ∨ Typed b := by
  by_cases hp : P.b x
  · obtain ⟨b', hb', h1⟩ := h x hp
    rw [hb] at hb'; cases hb'; exact h1
  · exact (hw.settled x b hb hp).imp (fun ⟨f, h1, _⟩ => ⟨f, h1⟩) id

/-- A base that was a reference has become typed. -/
theorem Run.finish {α : Type} {m : M St α} {Q : α → St → Prop} (h : Run E K True P ((only T).addB a) m s Q) (ha : ¬ Concrete s a) (hq : ∀ x s', Q x s' → Concrete s' a) :
    Run E K True P (only T) m s Q := by
  unfold Run at h ⊢
  cases hm : m s with
  | mk o t =>
    rw [hm] at h
    cases o with
    | ok x =>
      refine ⟨h.1, h.2.1, { h.2.2.1 with base := fun y hy _ => ?_, lib := fun i hi _ => h.2.2.1.lib i hi id, dt := fun i hi _ => h.2.2.1.dt i hi id }, h.2.2.2⟩
      by_cases hya : y = a
      · subst hya; exact .inr ⟨trivial, ha, hq x t h.2.2.2⟩
      · exact h.2.2.1.base y hy fun hp => hp.elim id hya
    | err e => exact h
    | panic e => trivial
    | diverge => exact h

theorem Run.widen {α : Type} {m : M St α} {r : Prop} {Q : α → St → Prop} (h : Run E K r P (only T) m s Q) : Run E K r P ((only T).addB a) m s Q :=
  h.mono only_addB fun _ _ hw _ hq => ⟨hw, hq⟩

/-- Changing a typed base. -/
theorem Run.setTyped {f : Base → Base} {b : Base} (hw : W E P s) (hx : K.X s) (hπ : π.b a) (hb : s.base a = some b) (hin : BaseIn s b → BaseIn s (f b)) (hid : (f b).id = b.id)
    (ht : Typed (f b)) (hloc : ∀ b, (f b).location = b.location := by intro _; rfl) : Run E K True P π (Heap.updBase a f) s (fun _ s' => s'.base a = some (f b) ∧ s'.slices = s.slices) := by
  refine (Run.updBase hw hx hπ (fun b' hb' => ?_) fun b _ => hloc b).post fun _ s' _ _ h => ?_
  · rw [hb] at hb'; cases hb'
    exact ⟨hin (hw.base a b hb), hid, .inr (.inr ht)⟩
  · subst h
    exact ⟨by rw [base_upd, if_pos rfl, hb]; rfl, rfl⟩

/-! ## Lookups -/

theorem lookupUsed_isBase (hw : W E P s) {uses : OMap (String × Option Nat)} {b c : String} {sel : Lib → OMap Addr} (hsel : ∀ l : Lib, LibIn s l → ∀ e ∈ sel l, IsBase s e.2)
    (h : lookupUsed s uses sel b c = .ok a) : IsBase s a := by
  unfold lookupUsed at h
  split at h
  · cases h
  split at h
  · cases h
  rename_i l hl
  split at h
  · cases h
  rename_i r hr
  cases h
  obtain ⟨i, _, hi⟩ := Option.bind_eq_some_iff.1 hl
  exact hsel l (hw.lib i l hi) _ (OMap.mem_of_get hr)

theorem getReferenced_isBase (hw : W E P s) {t loc : String} {sel : Lib → OMap Addr} (hsel : ∀ l : Lib, LibIn s l → ∀ e ∈ sel l, IsBase s e.2)
    (h : getReferenced s sel t loc = .ok a) : IsBase s a := by
  unfold getReferenced at h
  split at h
  · cases h
  · split at h
    · cases h
    rename_i l hl
    have hin := hw.lib _ l hl
    unfold Lib.getReference at h
    simp only at h
    split at h
    · split at h
      · cases h
      rename_i r hr
      cases h; exact hsel l hin _ (OMap.mem_of_get hr)
    · split at h
      · rename_i r hr
        cases h; exact hsel l hin _ (OMap.mem_of_get hr)
      · exact lookupUsed_isBase hw hsel h
  · split at h
    · cases h
    rename_i d hd
    unfold DT.getReference at h
    simp only at h
    split at h
    · cases h
    · exact lookupUsed_isBase hw hsel h
  · cases h

theorem lookupUsed_mono {r : Prop} (g : G r π s s') (hl : ∀ i, ¬ π.l i) {uses : OMap (String × Option Nat)} {b c : String} {sel : Lib → OMap Addr}
    (h : lookupUsed s uses sel b c = .ok a) : lookupUsed s' uses sel b c = .ok a := by
  unfold lookupUsed at h ⊢
  split at h
  · cases h
  rename_i v link hg
  split at h
  · cases h
  rename_i l hl'
  obtain ⟨i, h1, hi⟩ := Option.bind_eq_some_iff.1 hl'
  have : s'.libs[i]? = some l := (g.lib i ((List.getElem?_eq_some_iff.1 hi).1) (hl i)).trans hi
  subst h1
  simp only [Option.bind_some, this]
  exact h

theorem getReferenced_mono {r : Prop} (g : G r π s s') (hl : ∀ i, ¬ π.l i) (hd : ∀ i, ¬ π.d i) {t loc : String} {sel : Lib → OMap Addr}
    (h : getReferenced s sel t loc = .ok a) : getReferenced s' sel t loc = .ok a := by
  unfold getReferenced at h ⊢
  cases hf : getFragment s loc with
  | none => rw [hf] at h; cases h
  | some f =>
    rw [hf] at h
    rw [g.frag _ _ hf]
    cases f with
    | namedExample i => cases h
    | library i =>
      simp only at h ⊢
      cases hi : s.libs[i]? with
      | none => rw [hi] at h; cases h
      | some l =>
        rw [hi] at h
        rw [g.lib i ((List.getElem?_eq_some_iff.1 hi).1) (hl i), hi]
        simp only at h ⊢
        unfold Lib.getReference at h ⊢
        simp only at h ⊢
        split at h
        · rename_i hc; rw [if_pos hc]; exact h
        · rename_i hc; rw [if_neg hc]
          split at h
          · exact h
          · exact lookupUsed_mono g hl h
    | dataType i =>
      simp only at h ⊢
      cases hi : s.dts[i]? with
      | none => rw [hi] at h; cases h
      | some l =>
        rw [hi] at h
        rw [g.dt i ((List.getElem?_eq_some_iff.1 hi).1) (hd i), hi]
        simp only at h ⊢
        unfold DT.getReference at h ⊢
        simp only at h ⊢
        split at h
        · rename_i hc; rw [if_pos hc]; exact h
        · rename_i hc; rw [if_neg hc]; exact lookupUsed_mono g hl h

/-! ## Layouts stay -/

/-- What a layout rests on is the same in both states. -/
structure Keep (lo a : Addr) (s s' : St) : Prop where
  base : ∀ x, x = a ∨ lo ≤ x → Concrete s x → s'.base x = s.base x
  slices : s.slices <+: s'.slices
  refs : ∀ t loc r, getReferenced s Lib.types t loc = .ok r → getReferenced s' Lib.types t loc = .ok r

theorem Keep.of (lo : Addr) (g : G True (only T) s s') : Keep lo a s s' where
  base := fun x _ hc => by
    rcases g.base x (concrete_isBase hc) id with h | ⟨_, h, _⟩
    · exact h
    · exact absurd hc h
  slices := g.slices
  refs := fun _ _ _ h => getReferenced_mono g (fun _ h => h) (fun _ h => h) h

theorem Keep.except {lo : Addr} {x : Addr} (g : G True ((only T).addB x) s s') (hlo : x < lo) (ha : a ≠ x) : Keep lo a s s' where
  base := fun y hy hc => by
    have : y ≠ x := by
      rcases hy with rfl | hy
      · exact ha
      · intro e; subst e; exact absurd hy (Nat.not_le.2 hlo)
    rcases g.base y (concrete_isBase hc) (fun hp => hp.elim id this) with h | ⟨_, h, _⟩
    · exact h
    · exact absurd hc h
  slices := g.slices
  refs := fun _ _ _ h => getReferenced_mono g (fun _ h => h) (fun _ h => h) h

theorem Keep.part {lo i : Addr} (h : Keep lo a s s') (hi : lo ≤ i) : Keep lo i s s' :=
  { h with base := fun x hx hc => h.base x (.inr (hx.elim (fun e => e ▸ hi) id)) hc }

theorem slice_prefix (h : s.slices <+: s'.slices) {i : Nat} (hne : s.slice (some i) ≠ []) : s'.slice (some i) = s.slice (some i) := by
  obtain ⟨t, ht⟩ := h
  have hi : i < s.slices.length := by
    by_contra hn
    exact hne (by simp [St.slice, List.getElem?_eq_none (Nat.not_lt.1 hn)])
  show (s'.slices[i]?).getD [] = (s.slices[i]?).getD []
  rw [← ht, List.getElem?_append_left hi]

theorem layout_mono {lo : Addr} {loc : String} : ∀ (e : Rdt) {a : Addr}, Keep lo a s s' →
    (∀ plain, (layout s lo loc e).at_ plain a → (layout s' lo loc e).at_ plain a) ∧ (∀ ms, (layout s lo loc e).members ms → (layout s' lo loc e).members ms)
  | .prim p, a, h => by
    have h1 : ∀ a, Keep lo a s s' → ∀ plain, (layout s lo loc (.prim p)).at_ plain a → (layout s' lo loc (.prim p)).at_ plain a := by
      rintro a h plain ⟨b, hb, ht, h1⟩
      exact ⟨b, (h.base a (.inl rfl) ⟨b, hb, ht⟩).trans hb, ht, h1⟩
    exact ⟨h1 a h, fun ms ⟨m, e, hm, hl⟩ => ⟨m, e, hm, h1 m (h.part hm) True hl⟩⟩
  | .ref x y, a, h => by
    have h1 : ∀ a, Keep lo a s s' → ∀ plain, (layout s lo loc (.ref x y)).at_ plain a → (layout s' lo loc (.ref x y)).at_ plain a := by
      rintro a h plain ⟨b, r, hb, ht, h1, h2, h3⟩
      refine ⟨b, r, (h.base a (.inl rfl) ⟨b, hb, ht⟩).trans hb, ht, h.refs _ _ _ h1, h2, fun hp => ?_⟩
      have h4 := h3 hp
      cases hi : b.inherits with
      | none => rw [hi] at h4; cases h4
      | some i =>
        rw [hi] at h4
        rw [slice_prefix h.slices (List.ne_nil_of_mem h4)]; exact h4
    exact ⟨h1 a h, fun ms ⟨m, e, hm, hl⟩ => ⟨m, e, hm, h1 m (h.part hm) True hl⟩⟩
  | .group e, a, h => by
    exact ⟨(layout_mono e h).1, fun ms ⟨m, e1, hm, hl⟩ => ⟨m, e1, hm, (layout_mono e (h.part hm)).1 True hl⟩⟩
  | .optional e, a, h => by
    have h1 : ∀ a, Keep lo a s s' → ∀ plain, (layout s lo loc (.optional e)).at_ plain a → (layout s' lo loc (.optional e)).at_ plain a := by
      rintro a h plain ⟨b, i, m, n, bn, hb, ht, hs, hi, hm, hl, hn, hbn, htn, hsn⟩
      refine ⟨b, i, m, n, bn, (h.base a (.inl rfl) ⟨b, hb, ht⟩).trans hb, ht, hs, ?_, hm, (layout_mono e (h.part hm)).1 True hl, hn,
        (h.base n (.inr hn) ⟨bn, hbn, htn⟩).trans hbn, htn, hsn⟩
      rw [slice_prefix h.slices (by rw [hi]; simp)]; exact hi
    exact ⟨h1 a h, fun ms ⟨m, e, hm, hl⟩ => ⟨m, e, hm, h1 m (h.part hm) True hl⟩⟩
  | .array e, a, h => by
    have h1 : ∀ a, Keep lo a s s' → ∀ plain, (layout s lo loc (.array e)).at_ plain a → (layout s' lo loc (.array e)).at_ plain a := by
      rintro a h plain ⟨b, f, i, hb, ht, hs, hf, hp, hi, hl⟩
      exact ⟨b, f, i, (h.base a (.inl rfl) ⟨b, hb, ht⟩).trans hb, ht, hs, hf, hp, hi, (layout_mono e (h.part hi)).1 True hl⟩
    exact ⟨h1 a h, fun ms ⟨m, e, hm, hl⟩ => ⟨m, e, hm, h1 m (h.part hm) True hl⟩⟩
  | .union l r, a, h => by
    have h2 : ∀ ms, (layout s lo loc (.union l r)).members ms → (layout s' lo loc (.union l r)).members ms := by
      rintro ms ⟨m, rest, e, hm, h1, h2⟩
      exact ⟨m, rest, e, hm, (layout_mono l (h.part hm)).1 True h1, (layout_mono r h).2 rest h2⟩
    refine ⟨?_, h2⟩
    rintro plain ⟨b, i, hb, ht, hs, hm⟩
    refine ⟨b, i, (h.base a (.inl rfl) ⟨b, hb, ht⟩).trans hb, ht, hs, ?_⟩
    have hne : s.slice (some i) ≠ [] := by
      obtain ⟨m, rest, e, _⟩ := hm
      rw [e]; simp
    rw [slice_prefix h.slices hne]
    exact h2 _ hm

theorem layout_lower {lo lo' : Addr} (hlo : lo' ≤ lo) {loc : String} : ∀ (e : Rdt),
    (∀ plain a, (layout s lo loc e).at_ plain a → (layout s lo' loc e).at_ plain a) ∧ (∀ ms, (layout s lo loc e).members ms → (layout s lo' loc e).members ms)
  | .prim p => ⟨fun _ _ h => h, fun ms ⟨m, e, hm, hl⟩ => ⟨m, e, Nat.le_trans hlo hm, hl⟩⟩
  | .ref x y => ⟨fun _ _ h => h, fun ms ⟨m, e, hm, hl⟩ => ⟨m, e, Nat.le_trans hlo hm, hl⟩⟩
  | .group e => ⟨(layout_lower hlo e).1, fun ms ⟨m, e1, hm, hl⟩ => ⟨m, e1, Nat.le_trans hlo hm, (layout_lower hlo e).1 True m hl⟩⟩
  | .optional e => by
    have h1 : ∀ plain a, (layout s lo loc (.optional e)).at_ plain a → (layout s lo' loc (.optional e)).at_ plain a := by
      rintro plain a ⟨b, i, m, n, bn, hb, ht, hs, hi, hm, hl, hn, hbn, htn, hsn⟩
      exact ⟨b, i, m, n, bn, hb, ht, hs, hi, Nat.le_trans hlo hm, (layout_lower hlo e).1 True m hl, Nat.le_trans hlo hn, hbn, htn, hsn⟩
    exact ⟨h1, fun ms ⟨m, e1, hm, hl⟩ => ⟨m, e1, Nat.le_trans hlo hm, h1 True m hl⟩⟩
  | .array e => by
    have h1 : ∀ plain a, (layout s lo loc (.array e)).at_ plain a → (layout s lo' loc (.array e)).at_ plain a := by
      rintro plain a ⟨b, f, i, hb, ht, hs, hf, hp, hi, hl⟩
      exact ⟨b, f, i, hb, ht, hs, hf, hp, Nat.le_trans hlo hi, (layout_lower hlo e).1 True i hl⟩
    exact ⟨h1, fun ms ⟨m, e1, hm, hl⟩ => ⟨m, e1, Nat.le_trans hlo hm, h1 True m hl⟩⟩
  | .union l r => by
    have h2 : ∀ ms, (layout s lo loc (.union l r)).members ms → (layout s lo' loc (.union l r)).members ms := by
      rintro ms ⟨m, rest, e, hm, h1, h2⟩
      exact ⟨m, rest, e, Nat.le_trans hlo hm, (layout_lower hlo l).1 True m h1, (layout_lower hlo r).2 rest h2⟩
    exact ⟨fun plain a ⟨b, i, hb, ht, hs, hm⟩ => ⟨b, i, hb, ht, hs, h2 _ hm⟩, h2⟩

theorem layout_concrete {lo : Addr} {loc : String} : ∀ (e : Rdt) {plain : Prop} {a : Addr}, (layout s lo loc e).at_ plain a → Concrete s a
  | .prim _, _, _, ⟨b, hb, ht, _⟩ => ⟨b, hb, ht⟩
  | .ref _ _, _, _, ⟨b, _, hb, ht, _⟩ => ⟨b, hb, ht⟩
  | .group e, _, _, h => layout_concrete e h
  | .optional _, _, _, ⟨b, _, _, _, _, hb, ht, _⟩ => ⟨b, hb, ht⟩
  | .array _, _, _, ⟨b, _, _, hb, ht, _⟩ => ⟨b, hb, ht⟩
  | .union _ _, _, _, ⟨b, _, hb, ht, _⟩ => ⟨b, hb, ht⟩

end

end GoRaml.Load
