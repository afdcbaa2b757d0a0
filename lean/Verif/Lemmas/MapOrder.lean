import Verif.Lemmas.Terminate

namespace GoRaml

open Spec

/-- Shapes whose verdict makes no nested call. -/
theorem leaf_decides (E : Ext) (h : St) (a : Addr) (s : Shape) (hs : h.shapeAt a = some s) (v : GoVal)
    {P : Prop} (hd : ∀ rec, Decides (validateShape E rec h s v) P) :
    (Accepts E h a v ↔ P) ∧ (Rejects E h a v ↔ ¬ P) := by
  have hstep : ∀ n, validate E h (n + 1) a v = validateShape E (validate E h n) h s v := by
    intro n; simp only [validate, hs]
  constructor
  · constructor
    · rintro ⟨n, hn⟩
      cases n with
      | zero => simp [validate] at hn
      | succ n => rw [hstep] at hn; exact (hd _).ok_iff.1 hn
    · intro hP
      exact ⟨1, by rw [hstep]; exact (hd _).ok_iff.2 hP⟩
  · constructor
    · rintro ⟨n, m, hn⟩
      cases n with
      | zero => simp [validate] at hn
      | succ n => rw [hstep] at hn; exact (hd _).err_iff.1 ⟨m, hn⟩
    · intro hP
      obtain ⟨m, hm⟩ := (hd (validate E h 0)).err_iff.2 hP
      exact ⟨1, m, by rw [hstep]; exact hm⟩

theorem addr_of_shape {h : St} {a : Addr} {s : Shape} (hs : h.shapeAt a = some s) :
    a < h.bases.length := by
  by_contra hn
  have : h.bases[a]? = none := List.getElem?_eq_none (Nat.not_lt.1 hn)
  simp [St.shapeAt, St.base, this] at hs

/-- A run's verdict is right about acceptance. -/
theorem sound_accepts (E : Ext) (h : St) (n : Nat) (a : Addr) (v : GoVal) :
    Sound (validate E h n a v) (Accepts E h a v) := by
  refine ⟨fun ho => ⟨n, ho⟩, ?_⟩
  rintro m hm ⟨k, hk⟩
  have := validate_det E h (n := n) (m := k) (by rw [hm]; simp) (by rw [hk]; simp)
  rw [hm, hk] at this
  cases this

theorem array_accepts (E : Ext) (h : St) (a : Addr) (f : ArrayF) (hs : h.shapeAt a = some (.array f))
    (v : GoVal) : Accepts E h a v ↔ ArrayOK E.hash (Accepts E h) f v := by
  have key : ∀ n, Sound (validateShape E (validate E h n) h (.array f) v)
      (ArrayOK E.hash (Accepts E h) f v) := fun n =>
    array_sound E (validate E h n) (Accepts E h) f v (fun l _ b _ x _ => sound_accepts E h n b x)
  constructor
  · rintro ⟨n, hn⟩
    cases n with
    | zero => simp [validate] at hn
    | succ n => simp only [validate, hs] at hn; exact (key n).1 hn
  · intro hok
    obtain ⟨l, rfl, h2, h3, h4⟩ := id hok
    -- every nested call accepts, hence returns
    obtain ⟨n, hn⟩ := common_fuel E h (subCalls h (.array f) (.arr l)) (by
      rintro ⟨b, x⟩ hp
      obtain ⟨k, hk⟩ : Accepts E h b x := by
        cases sub_of_mem_subCalls hp with
        | item h5 h6 => exact h3 _ h5 _ h6
      exact ⟨k, by rw [hk]; simp⟩)
    refine ⟨n + 1, ?_⟩
    simp only [validate, hs]
    have hnb : ¬ (validateShape E (validate E h n) h (.array f) (.arr l)).Bad := by
      intro hb
      obtain ⟨b, x, h5, h6⟩ := validateShape_bad E _ h _ _ hb
      have hacc : Accepts E h b x := by
        cases h5 with
        | item h7 h8 => exact h3 _ h7 _ h8
      obtain ⟨k, hk⟩ := hacc
      have hd := hn _ (mem_subCalls_of_sub h5)
      simp only at hd
      have := validate_det E h hd (m := k) (by rw [hk]; simp)
      rw [this, hk] at h6
      cases h6
    cases ho : validateShape E (validate E h n) h (.array f) (.arr l) with
    | ok u => rfl
    | err m => exact absurd hok ((key n).2 m ho)
    | panic m => rw [ho] at hnb; exact absurd SameBad.panic hnb
    | diverge => rw [ho] at hnb; exact absurd SameBad.diverge hnb

theorem rejects_iff_not_accepts (E : Ext) {h : St} (hc : Closed h) (hg : Guarded h) {a : Addr}
    (ha : a < h.bases.length) {v : GoVal} (hv : GoValue v) : Rejects E h a v ↔ ¬ Accepts E h a v := by
  have := accepts_iff_valid E hc hg ha hv
  rw [this.1, this.2]

/-- Acceptance unfolds one level on closed, guarded heaps. -/
theorem accepts_iff_step (E : Ext) {h : St} (hc : Closed h) (hg : Guarded h) {a : Addr}
    (ha : a < h.bases.length) {v : GoVal} (hv : GoValue v) :
    Accepts E h a v ↔ Step E h (Accepts E h) a v := by
  obtain ⟨s, hs⟩ := hc.shape ha
  have key : ∀ n, Sound (validate E h (n + 1) a v) (Step E h (Accepts E h) a v) := by
    intro n
    simp only [validate, hs]
    exact validateShape_sound E h _ _ (fun b w _ => sound_accepts E h n b w) a s hs v hv
  obtain ⟨n, hn⟩ := validate_decides E hc hg ha hv
  have hd := hn (n + 1) (by omega)
  constructor
  · rintro ⟨k, hk⟩
    cases k with
    | zero => simp [validate] at hk
    | succ k => exact (key k).1 hk
  · intro hst
    rcases hd with ⟨h1, _⟩ | ⟨⟨m, h1⟩, _⟩
    · exact ⟨_, h1⟩
    · exact absurd hst ((key n).2 m h1)

theorem self_union_diverges (E : Ext) (h : St) (a b : Addr) (anyOf : Option Nat)
    (enum : Option (List GoVal)) (hs : h.shapeAt a = some (.union anyOf enum)) (pre post : List Addr)
    (hm : h.slice anyOf = pre ++ b :: post) (hb : b = a ∨ h.shapeAt b = some (.recursive a)) (v : GoVal)
    (hpre : ∀ m ∈ pre, Rejects E h m v) : ∀ n, validate E h n a v = .diverge := by
  intro n
  induction n using Nat.strong_induction_on with
  | _ n ih =>
    cases n with
    | zero => rfl
    | succ n =>
      simp only [validate, hs, validateShape, hm]
      have hbd : validate E h n b v = .diverge := by
        rcases hb with rfl | hb
        · exact ih n (by omega)
        · cases n with
          | zero => rfl
          | succ n =>
            simp only [validate, hb, validateShape]
            exact ih n (by omega)
      clear hm
      induction pre with
      | nil => simp [unionValidate, hbd]
      | cons c pre ihp =>
        have ihp := ihp (fun m hm => hpre m (List.mem_cons_of_mem _ hm))
        simp only [List.cons_append, unionValidate]
        obtain ⟨k, m, hk⟩ := hpre c (by simp)
        by_cases hd : validate E h n c v = .diverge
        · rw [hd]
        · rw [validate_det E h hd (m := k) (by rw [hk]; simp), hk]
          exact ihp

theorem Spec.SameUpToMapOrder.goValue {v w : GoVal} (h : SameUpToMapOrder v w) (hv : GoValue v) :
    GoValue w := by
  induction h with
  | refl v => exact hv
  | trans _ _ ih1 ih2 => exact ih2 (ih1 hv)
  | perm hp =>
    exact .map _ (fun kv hkv => GoValue.map_inv hv kv (hp.mem_iff.2 hkv))
  | inArr pre post _ ih =>
    have := GoValue.arr_inv hv
    refine .arr _ (fun x hx => ?_)
    simp only [List.mem_append, List.mem_cons] at hx this
    rcases hx with hx | rfl | hx
    · exact this x (Or.inl hx)
    · exact ih (this _ (Or.inr (Or.inl rfl)))
    · exact this x (Or.inr (Or.inr hx))
  | inMap k pre post _ ih =>
    have := GoValue.map_inv hv
    refine .map _ (fun x hx => ?_)
    simp only [List.mem_append, List.mem_cons] at hx this
    rcases hx with hx | rfl | hx
    · exact this x (Or.inl hx)
    · exact ih (this _ (Or.inr (Or.inl rfl)))
    · exact this x (Or.inr (Or.inr hx))

theorem Spec.SameUpToMapOrder.symm {v w : GoVal} (h : SameUpToMapOrder v w) : SameUpToMapOrder w v := by
  induction h with
  | refl v => exact .refl v
  | trans _ _ ih1 ih2 => exact .trans ih2 ih1
  | perm hp => exact .perm hp.symm
  | inArr pre post _ ih => exact .inArr pre post ih
  | inMap k pre post _ ih => exact .inMap k pre post ih

theorem not_arr_map_integer {f : IntegerF} {v : GoVal} (h : IntegerOK f v) :
    (∀ l, v ≠ .arr l) ∧ (∀ m, v ≠ .map m) := by
  obtain ⟨i, hi, _⟩ := h
  cases hi <;> simp

/-- Entry-wise relation of two maps: same keys and related values. -/
theorem step_mapOrder (E : Ext) (hlaw : ∀ v w, SameUpToMapOrder v w → E.hash v = E.hash w) (h : St)
    (P : Addr → GoVal → Prop) (hP : ∀ a v w, SameUpToMapOrder v w → P a v → P a w) (a : Addr)
    {v w : GoVal} (hvw : SameUpToMapOrder v w) (hs : Step E h P a v) : Step E h P a w := by
  induction hvw with
  | refl v => exact hs
  | trans _ _ ih1 ih2 => exact ih2 (ih1 hs)
  | @perm m m' hp =>
    unfold Step at hs ⊢
    cases hsh : h.shapeAt a with
    | none => simp [hsh] at hs
    | some s =>
      rw [hsh] at hs
      cases s <;> simp only at hs ⊢ <;> try (first | exact hs | (exfalso; cases hs; done))
      case object f =>
        obtain ⟨m0, h1, h2, h3, h4, h5⟩ := hs
        cases h1
        exact ⟨m', rfl, by rw [← hp.length_eq]; exact h2,
          fun p hpp hr => by obtain ⟨x, hx⟩ := h3 p hpp hr; exact ⟨x, hp.mem_iff.1 hx⟩,
          fun k x p hk => h4 k x p (hp.mem_iff.2 hk), fun k x hk => h5 k x (hp.mem_iff.2 hk)⟩
      case array f => obtain ⟨l, h1, _⟩ := hs; cases h1
      case string f => obtain ⟨l, h1, _⟩ := hs; cases h1
      case integer f =>
        rcases hs with ⟨_, hs⟩ | ⟨_, x, hx, _⟩
        · exact absurd rfl ((not_arr_map_integer hs).2 _)
        · cases hx
      case number f => obtain ⟨x, h1, _⟩ := hs; cases h1
      case datetime fmt =>
        unfold DateTimeOK at hs
        split at hs <;> (obtain ⟨x, h1⟩ := hs; first | cases h1.1 | cases h1)
      case datetimeOnly => obtain ⟨x, h1, _⟩ := hs; cases h1
      case dateOnly => obtain ⟨x, h1, _⟩ := hs; cases h1
      case timeOnly => obtain ⟨x, h1, _⟩ := hs; cases h1
      case file f => obtain ⟨x, h1, _⟩ := hs; cases h1
      case boolean f => obtain ⟨x, h1, _⟩ := hs; cases h1
      case union anyOf e =>
        obtain ⟨b, h1, h2⟩ := hs
        exact ⟨b, h1, hP _ _ _ (.perm hp) h2⟩
      case recursive hd => exact hP _ _ _ (.perm hp) hs
  | @inArr x y pre post hxy ih =>
    unfold Step at hs ⊢
    cases hsh : h.shapeAt a with
    | none => simp [hsh] at hs
    | some s =>
      rw [hsh] at hs
      cases s <;> simp only at hs ⊢ <;> try (first | exact hs | (exfalso; cases hs; done))
      case object f => obtain ⟨l, h1, _⟩ := hs; cases h1
      case array f =>
        obtain ⟨m0, h1, h2, h3, h4⟩ := hs
        cases h1
        refine ⟨_, rfl, by simpa using h2, ?_, ?_⟩
        · intro b hb z hz
          have h3 := h3 b hb
          simp only [List.mem_append, List.mem_cons] at hz h3
          rcases hz with hz | rfl | hz
          · exact h3 z (Or.inl hz)
          · exact hP _ _ _ hxy (h3 _ (Or.inr (Or.inl rfl)))
          · exact h3 z (Or.inr (Or.inr hz))
        · intro hu
          obtain ⟨ks, h5, h6⟩ := h4 hu
          refine ⟨ks, ?_, h6⟩
          rw [← h5]; simp [hlaw x y hxy]
      case string f => obtain ⟨l, h1, _⟩ := hs; cases h1
      case integer f =>
        rcases hs with ⟨_, hs⟩ | ⟨_, x, hx, _⟩
        · exact absurd rfl ((not_arr_map_integer hs).1 _)
        · cases hx
      case number f => obtain ⟨x, h1, _⟩ := hs; cases h1
      case datetime fmt =>
        unfold DateTimeOK at hs
        split at hs <;> (obtain ⟨x, h1⟩ := hs; first | cases h1.1 | cases h1)
      case datetimeOnly => obtain ⟨x, h1, _⟩ := hs; cases h1
      case dateOnly => obtain ⟨x, h1, _⟩ := hs; cases h1
      case timeOnly => obtain ⟨x, h1, _⟩ := hs; cases h1
      case file f => obtain ⟨x, h1, _⟩ := hs; cases h1
      case boolean f => obtain ⟨x, h1, _⟩ := hs; cases h1
      case union anyOf e =>
        obtain ⟨b, h1, h2⟩ := hs
        exact ⟨b, h1, hP _ _ _ (.inArr pre post hxy) h2⟩
      case recursive hd => exact hP _ _ _ (.inArr pre post hxy) hs
  | @inMap x y k0 pre post hxy ih =>
    unfold Step at hs ⊢
    cases hsh : h.shapeAt a with
    | none => simp [hsh] at hs
    | some s =>
      rw [hsh] at hs
      cases s <;> simp only at hs ⊢ <;> try (first | exact hs | (exfalso; cases hs; done))
      case object f =>
        obtain ⟨m0, h1, h2, h3, h4, h5⟩ := hs
        cases h1
        -- each entry of the new map comes from an entry of the old one with the same key
        have back : ∀ k z, (k, z) ∈ pre ++ (k0, y) :: post →
            ∃ z', (k, z') ∈ pre ++ (k0, x) :: post ∧ SameUpToMapOrder z' z := by
          intro k z hz
          simp only [List.mem_append, List.mem_cons, Prod.mk.injEq] at hz ⊢
          rcases hz with hz | ⟨rfl, rfl⟩ | hz
          · exact ⟨z, Or.inl hz, .refl _⟩
          · exact ⟨x, Or.inr (Or.inl ⟨rfl, rfl⟩), hxy⟩
          · exact ⟨z, Or.inr (Or.inr hz), .refl _⟩
        have forth : ∀ k z, (k, z) ∈ pre ++ (k0, x) :: post →
            ∃ z', (k, z') ∈ pre ++ (k0, y) :: post := by
          intro k z hz
          simp only [List.mem_append, List.mem_cons, Prod.mk.injEq] at hz ⊢
          rcases hz with hz | ⟨rfl, rfl⟩ | hz
          · exact ⟨z, Or.inl hz⟩
          · exact ⟨y, Or.inr (Or.inl ⟨rfl, rfl⟩)⟩
          · exact ⟨z, Or.inr (Or.inr hz)⟩
        refine ⟨_, rfl, by simpa using h2, ?_, ?_, ?_⟩
        · intro p hp hr
          obtain ⟨z, hz⟩ := h3 p hp hr
          exact forth _ _ hz
        · intro k z p hz hd
          obtain ⟨z', h6, h7⟩ := back k z hz
          exact hP _ _ _ h7 (h4 k z' p h6 hd)
        · intro k z hz hq
          obtain ⟨z', h6, h7⟩ := back k z hz
          obtain ⟨h8, h9⟩ := h5 k z' h6 hq
          refine ⟨h8, ?_⟩
          rcases h9 with h9 | ⟨p, h9, h10, h11⟩
          · exact Or.inl h9
          · exact Or.inr ⟨p, h9, h10, hP _ _ _ h7 h11⟩
      case array f => obtain ⟨l, h1, _⟩ := hs; cases h1
      case string f => obtain ⟨l, h1, _⟩ := hs; cases h1
      case integer f =>
        rcases hs with ⟨_, hs⟩ | ⟨_, x, hx, _⟩
        · exact absurd rfl ((not_arr_map_integer hs).2 _)
        · cases hx
      case number f => obtain ⟨x, h1, _⟩ := hs; cases h1
      case datetime fmt =>
        unfold DateTimeOK at hs
        split at hs <;> (obtain ⟨x, h1⟩ := hs; first | cases h1.1 | cases h1)
      case datetimeOnly => obtain ⟨x, h1, _⟩ := hs; cases h1
      case dateOnly => obtain ⟨x, h1, _⟩ := hs; cases h1
      case timeOnly => obtain ⟨x, h1, _⟩ := hs; cases h1
      case file f => obtain ⟨x, h1, _⟩ := hs; cases h1
      case boolean f => obtain ⟨x, h1, _⟩ := hs; cases h1
      case union anyOf e =>
        obtain ⟨b, h1, h2⟩ := hs
        exact ⟨b, h1, hP _ _ _ (.inMap k0 pre post hxy) h2⟩
      case recursive hd => exact hP _ _ _ (.inMap k0 pre post hxy) hs

theorem valid_mapOrder (E : Ext) (hlaw : ∀ v w, SameUpToMapOrder v w → E.hash v = E.hash w) (h : St)
    (a : Addr) {v w : GoVal} (hvw : SameUpToMapOrder v w) : Valid E h a v ↔ Valid E h a w := by
  have one : ∀ a v, Valid E h a v → ∀ w, SameUpToMapOrder v w → Valid E h a w := by
    intro a v hV
    refine hV (fun a v => ∀ w, SameUpToMapOrder v w → Valid E h a w) ?_
    intro a v hs w hvw
    have := step_mapOrder E hlaw h (fun a v => ∀ w, SameUpToMapOrder v w → Valid E h a w)
      (fun a v w h1 h2 u h3 => h2 u (.trans h1 h3)) a hvw hs
    rw [valid_iff_step]
    exact Step.mono (fun b u hb => hb u (.refl u)) this
  exact ⟨fun hV => one a v hV w hvw, fun hV => one a w hV v hvw.symm⟩

end GoRaml
