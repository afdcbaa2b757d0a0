import Verif.Lemmas.Scalars

namespace GoRaml

open Spec

/-- A verdict that is right whenever it is given: nil only if `P`, error only if not `P`. -/
def Sound (o : Out Unit) (P : Prop) : Prop := (o = .ok () → P) ∧ (∀ m, o = .err m → ¬ P)

theorem Decides.sound {o : Out Unit} {P : Prop} (h : Decides o P) : Sound o P := by
  rcases h with ⟨h1, h2⟩ | ⟨⟨m, h1⟩, h2⟩ <;> simp_all [Sound]

theorem Sound.congr {o : Out Unit} {P Q : Prop} (h : Sound o P) (hpq : P ↔ Q) : Sound o Q :=
  ⟨fun ho => hpq.1 (h.1 ho), fun m ho hq => h.2 m ho (hpq.2 hq)⟩

theorem sound_ite_err {b : Bool} {m : String} {o : Out Unit} {P Q : Prop}
    (hb : b = false ↔ P) (ho : Sound o Q) : Sound (if b then .err m else o) (P ∧ Q) := by
  cases b
  · have : P := hb.1 rfl
    simpa [this] using ho
  · simp [Sound]
    intro hp; simpa using hb.2 hp

theorem sound_bounds {α : Type} (lt : α → α → Bool) (le : α → α → Prop)
    (hle : ∀ a b, lt b a = false ↔ le a b) (lo hi : Option α) (x : α) {m1 m2 : String}
    {o : Out Unit} {Q : Prop} (ho : Sound o Q) :
    Sound (if belowMin lt x lo then .err m1 else if aboveMax lt x hi then .err m2 else o)
      (Between le lo hi x ∧ Q) := by
  have h := sound_ite_err (b := belowMin lt x lo) (m := m1) Iff.rfl
    (sound_ite_err (b := aboveMax lt x hi) (m := m2) Iff.rfl ho)
  refine h.congr ?_
  rw [← and_assoc, inBounds_iff lt le hle]

theorem sound_err {m : String} {P : Prop} (h : ¬ P) : Sound (.err m) P := by simp [Sound, h]

/-! ### Arrays -/

/-- What the loop over the items computes. -/
theorem validateItems_spec (E : Ext) (rec : Addr → GoVal → Out Unit) (P : Addr → GoVal → Prop)
    (items : Option Addr) (unique : Bool) (l : List GoVal)
    (hrec : ∀ a, items = some a → ∀ x ∈ l, Sound (rec a x) (P a x)) (seen : List Nat) (hseen : seen.Nodup) :
    (∀ out, validateItems E rec items unique l seen = .ok out →
      (∀ a, items = some a → ∀ x ∈ l, P a x) ∧
      (unique = false → out = seen) ∧
      (unique = true → ∃ hs : List Nat, l.map E.hash = hs.map some ∧ out.Nodup ∧
        out.length ≤ seen.length + l.length ∧
        (out.length = seen.length + l.length ↔ (hs.reverse ++ seen).Nodup))) ∧
    (∀ m, validateItems E rec items unique l seen = .err m →
      ¬ ((∀ a, items = some a → ∀ x ∈ l, P a x) ∧
        (unique = true → ∃ hs : List Nat, l.map E.hash = hs.map some))) := by
  induction l generalizing seen with
  | nil =>
    constructor
    · intro out h
      simp [validateItems] at h
      subst h
      refine ⟨by simp, fun _ => rfl, fun _ => ⟨[], by simp, hseen, by simp, by simpa using hseen⟩⟩
    · intro m h; simp [validateItems] at h
  | cons x xs ih =>
    have hrec' : ∀ a, items = some a → ∀ y ∈ xs, Sound (rec a y) (P a y) :=
      fun a ha y hy => hrec a ha y (List.mem_cons_of_mem _ hy)
    -- the item check
    have hitem : (validateItem rec items x = .ok () → ∀ a, items = some a → P a x) ∧
        (∀ m, validateItem rec items x = .err m → ¬ ∀ a, items = some a → P a x) := by
      cases items with
      | none => simp [validateItem]
      | some a =>
        have := hrec a rfl x (by simp)
        exact ⟨fun h b hb => by cases hb; exact this.1 h,
          fun m h hall => this.2 m h (hall a rfl)⟩
    simp only [validateItems]
    generalize validateItem rec items x = o at hitem ⊢
    cases o with
    | ok u =>
      simp only [Out.bind]
      have hx := hitem.1 rfl
      cases unique with
      | false =>
        simp only [Bool.false_eq_true, if_false]
        obtain ⟨ih1, ih2⟩ := ih hrec' seen hseen
        constructor
        · intro out h
          obtain ⟨h1, h2, _⟩ := ih1 out h
          refine ⟨?_, fun _ => h2 rfl, by simp⟩
          intro a ha y hy
          rcases List.mem_cons.1 hy with rfl | hy
          · exact hx a ha
          · exact h1 a ha y hy
        · intro m h hall
          refine ih2 m h ⟨fun a ha y hy => hall.1 a ha y (List.mem_cons_of_mem _ hy), by simp⟩
      | true =>
        simp only [if_true]
        cases hh : E.hash x with
        | none =>
          constructor
          · intro out h; simp at h
          · intro m h hall
            obtain ⟨hs, hhs⟩ := hall.2 trivial
            simp only [List.map_cons, hh] at hhs
            cases hs <;> simp at hhs
        | some k =>
          simp only
          by_cases hk : k ∈ seen
          · simp only [hk, if_true]
            obtain ⟨ih1, ih2⟩ := ih hrec' seen hseen
            constructor
            · intro out h
              obtain ⟨h1, _, h3⟩ := ih1 out h
              obtain ⟨hs, h4, h5, h6, h7⟩ := h3 rfl
              refine ⟨?_, by simp, fun _ => ⟨k :: hs, by simp [hh, h4], h5, by simp; omega, ?_⟩⟩
              · intro a ha y hy
                rcases List.mem_cons.1 hy with rfl | hy
                · exact hx a ha
                · exact h1 a ha y hy
              · constructor
                · intro hlen; simp at hlen; omega
                · intro hnd
                  exact absurd rfl ((List.nodup_append.1 hnd).2.2 k (by simp) k hk)
            · intro m h hall
              refine ih2 m h ⟨fun a ha y hy => hall.1 a ha y (List.mem_cons_of_mem _ hy), fun _ => ?_⟩
              obtain ⟨hs, hhs⟩ := hall.2 trivial
              cases hs with
              | nil => simp at hhs
              | cons k' hs => simp [hh] at hhs; exact ⟨hs, hhs.2⟩
          · simp only [hk, if_false]
            obtain ⟨ih1, ih2⟩ := ih hrec' (k :: seen) (List.nodup_cons.2 ⟨hk, hseen⟩)
            constructor
            · intro out h
              obtain ⟨h1, _, h3⟩ := ih1 out h
              obtain ⟨hs, h4, h5, h6, h7⟩ := h3 rfl
              simp only [List.length_cons] at h6 h7 ⊢
              refine ⟨?_, by simp, fun _ => ⟨k :: hs, by simp [hh, h4], h5, by omega, ?_⟩⟩
              · intro a ha y hy
                rcases List.mem_cons.1 hy with rfl | hy
                · exact hx a ha
                · exact h1 a ha y hy
              · rw [show seen.length + (xs.length + 1) = seen.length + 1 + xs.length by omega, h7]
                simp
            · intro m h hall
              refine ih2 m h ⟨fun a ha y hy => hall.1 a ha y (List.mem_cons_of_mem _ hy), fun _ => ?_⟩
              obtain ⟨hs, hhs⟩ := hall.2 trivial
              cases hs with
              | nil => simp at hhs
              | cons k' hs => simp [hh] at hhs; exact ⟨hs, hhs.2⟩
    | err m =>
      simp only [Out.bind]
      refine ⟨by simp, ?_⟩
      intro m' h hall
      exact hitem.2 m rfl (fun a ha => hall.1 a ha x (by simp))
    | panic m => simp [Out.bind]
    | diverge => simp [Out.bind]

theorem map_some_inj {hs hs' : List Nat} (h : hs.map some = hs'.map some) : hs = hs' := by
  induction hs generalizing hs' with
  | nil => cases hs' <;> simp_all
  | cons a hs ih =>
    cases hs' with
    | nil => simp at h
    | cons b hs' => simp at h; rw [h.1, ih h.2]

theorem array_sound (E : Ext) (rec : Addr → GoVal → Out Unit) (P : Addr → GoVal → Prop) (f : ArrayF)
    (v : GoVal) (hrec : ∀ l, v = .arr l → ∀ a, f.items = some a → ∀ x ∈ l, Sound (rec a x) (P a x)) :
    Sound (arrayValidate E rec f v) (ArrayOK E.hash P f v) := by
  cases v with
  | arr l =>
    simp only [arrayValidate]
    have hspec := validateItems_spec E rec P f.items (f.uniqueItems == some true) l
      (hrec l rfl) [] List.nodup_nil
    refine (sound_bounds natLt (· ≤ ·) natLt_false f.minItems f.maxItems l.length (Q :=
      (∀ a, f.items = some a → ∀ x ∈ l, P a x) ∧
      (f.uniqueItems = some true → ∃ hs : List Nat, l.map E.hash = hs.map some ∧ hs.Nodup))
      ?_).congr ⟨fun h => ⟨l, rfl, h⟩, ?_⟩
    · cases hv : validateItems E rec f.items (f.uniqueItems == some true) l [] with
      | ok out =>
        obtain ⟨h1, h2, h3⟩ := hspec.1 out hv
        simp only [Out.bind]
        by_cases hu : f.uniqueItems = some true
        · simp only [hu, BEq.rfl, Bool.true_and]
          obtain ⟨hs, h4, h5, h6, h7⟩ := h3 (by simp [hu])
          simp only [List.length_nil, Nat.zero_add, List.append_nil, List.nodup_reverse] at h7
          by_cases hl : out.length = l.length
          · simp only [hl, bne_self_eq_false, Bool.false_eq_true, if_false]
            exact ⟨fun _ => ⟨h1, fun _ => ⟨hs, h4, h7.1 hl⟩⟩, by simp⟩
          · have : (out.length != l.length) = true := by simpa using hl
            simp only [this, if_true]
            refine ⟨by simp, ?_⟩
            rintro m - ⟨_, hex⟩
            obtain ⟨hs', h8, h9⟩ := hex trivial
            have := map_some_inj (h4.symm.trans h8)
            subst this
            exact hl (h7.2 h9)
        · have : (f.uniqueItems == some true) = false := by simpa using hu
          simp only [this, Bool.false_and, Bool.false_eq_true, if_false]
          exact ⟨fun _ => ⟨h1, fun h => absurd h hu⟩, by simp⟩
      | err m =>
        simp only [Out.bind]
        refine ⟨by simp, ?_⟩
        rintro m' - ⟨h1, h2⟩
        refine hspec.2 m hv ⟨h1, fun hu => ?_⟩
        obtain ⟨hs, h3, _⟩ := h2 (by simpa using hu)
        exact ⟨hs, h3⟩
      | panic m => simp [Out.bind, Sound]
      | diverge => simp [Out.bind, Sound]
    · rintro ⟨l', hl, h⟩
      cases hl; exact h
  | _ =>
    refine sound_err ?_
    rintro ⟨x, hx, _⟩
    cases hx

/-! ### Objects -/

theorem OMap.get_some_iff (ps : OMap Property) (k : String) (p : Property) :
    OMap.get ps k = some p ↔ Declares ps k p := by
  induction ps with
  | nil => simp [OMap.get, Declares]
  | cons q ps ih =>
    obtain ⟨k', p'⟩ := q
    simp only [OMap.get]
    by_cases hk : k' = k
    · subst hk
      simp only [if_true, Option.some.injEq]
      constructor
      · rintro rfl; exact ⟨[], ps, rfl, by simp⟩
      · rintro ⟨pre, post, h1, h2⟩
        cases pre with
        | nil => simp at h1; exact h1.1
        | cons r pre =>
          simp at h1
          exact absurd (by rw [← h1.1]) (h2 r (by simp))
    · simp only [hk, if_false]
      rw [ih]
      constructor
      · rintro ⟨pre, post, h1, h2⟩
        refine ⟨(k', p') :: pre, post, by simp [h1], ?_⟩
        intro q hq
        rcases List.mem_cons.1 hq with rfl | hq
        · exact hk
        · exact h2 q hq
      · rintro ⟨pre, post, h1, h2⟩
        cases pre with
        | nil => simp at h1; exact absurd h1.1.1 hk
        | cons r pre =>
          simp at h1
          exact ⟨pre, post, h1.2, fun q hq => h2 q (List.mem_cons_of_mem _ hq)⟩

theorem OMap.get_none_iff {α : Type} (ps : OMap α) (k : String) :
    OMap.get ps k = none ↔ ∀ q ∈ ps, q.1 ≠ k := by
  induction ps with
  | nil => simp [OMap.get]
  | cons q ps ih =>
    obtain ⟨k', p'⟩ := q
    simp only [OMap.get]
    by_cases hk : k' = k
    · simp [hk]
    · simp [hk, ih]

theorem field_isNone_iff (m : List (String × GoVal)) (k : String) :
    (GoVal.field m k).isNone = true ↔ ¬ ∃ x, (k, x) ∈ m := by
  induction m with
  | nil => simp [GoVal.field]
  | cons q m ih =>
    obtain ⟨k', x'⟩ := q
    simp only [GoVal.field]
    by_cases hk : k' = k
    · subst hk; simp only [if_true]; simp
    · simp only [hk, if_false]
      rw [ih]
      have : ∀ x, ((k, x) ∈ (k', x') :: m ↔ (k, x) ∈ m) := by
        intro x; simp [Ne.symm (a := k') (b := k) hk]
      simp [this]

theorem missing_isEmpty_iff (ps : OMap Property) (m : List (String × GoVal)) :
    (!(findMissingRequired ps m).isEmpty) = false ↔
      ∀ p ∈ ps, p.2.required = true → ∃ x, (p.1, x) ∈ m := by
  simp only [findMissingRequired, Bool.not_eq_false', List.isEmpty_iff, List.map_eq_nil_iff,
    List.filter_eq_nil_iff, Bool.and_eq_true, not_and]
  constructor
  · intro h p hp hr
    have := h p hp hr
    rw [field_isNone_iff] at this
    simpa using this
  · intro h p hp hr
    rw [field_isNone_iff]
    simpa using h p hp hr

theorem pattern_sound (E : Ext) (rec : Addr → GoVal → Out Unit) (P : Addr → GoVal → Prop) (k : String)
    (x : GoVal) (pps : OMap PatternProperty) (hrec : ∀ p ∈ pps, Sound (rec p.2.base x) (P p.2.base x))
    (hadError : Bool) :
    Sound (validatePatternProperty E rec k x pps hadError)
      ((hadError = false ∧ ∀ p ∈ pps, E.reMatch p.2.pattern k = false) ∨
        (∃ p ∈ pps, E.reMatch p.2.pattern k = true ∧ P p.2.base x)) := by
  induction pps generalizing hadError with
  | nil => cases hadError <;> simp [validatePatternProperty, Sound]
  | cons q pps ih =>
    obtain ⟨key, pp⟩ := q
    have ih := fun b => ih (fun p hp => hrec p (List.mem_cons_of_mem _ hp)) b
    simp only [validatePatternProperty]
    cases hm : E.reMatch pp.pattern k with
    | false =>
      simp only [Bool.not_false, if_true]
      refine (ih hadError).congr ?_
      simp [hm]
    | true =>
      simp only [Bool.not_true, Bool.false_eq_true, if_false]
      have hq := hrec (key, pp) (by simp)
      cases hr : rec pp.base x with
      | ok u =>
        have hP := hq.1 hr
        simp only [Sound, reduceCtorEq, false_implies, implies_true, and_true, true_implies]
        exact Or.inr ⟨(key, pp), by simp, hm, hP⟩
      | err m =>
        have hP := hq.2 m hr
        simp only
        refine (ih true).congr ?_
        simp [hm]
        simp at hP
        simp [hP]
      | panic m => simp [Sound]
      | diverge => simp [Sound]

theorem forEach_sound {α : Type} (f : α → Out Unit) (P : α → Prop) (l : List α)
    (h : ∀ x ∈ l, Sound (f x) (P x)) : Sound (Out.forEach f l) (∀ x ∈ l, P x) := by
  induction l with
  | nil => simp [Out.forEach, Sound]
  | cons x xs ih =>
    have ih := ih (fun y hy => h y (List.mem_cons_of_mem _ hy))
    have hx := h x (by simp)
    simp only [Out.forEach]
    cases hf : f x with
    | ok u =>
      have hP := hx.1 hf
      simp only [Out.bind]
      refine ih.congr ?_
      simp [hP]
    | err m =>
      have hP := hx.2 m hf
      simp [Out.bind, Sound, hP]
    | panic m => simp [Out.bind, Sound]
    | diverge => simp [Out.bind, Sound]

theorem object_sound (E : Ext) (rec : Addr → GoVal → Out Unit) (P : Addr → GoVal → Prop) (h : St)
    (f : ObjectF) (v : GoVal)
    (hrec : ∀ m, v = .map m → ∀ kv ∈ m,
      (∀ p ∈ h.props f.properties, Sound (rec p.2.base kv.2) (P p.2.base kv.2)) ∧
      (∀ p ∈ h.patProps f.patternProperties, Sound (rec p.2.base kv.2) (P p.2.base kv.2))) :
    Sound (objectValidate E rec h f v) (ObjectOK E.reMatch P h f v) := by
  cases v with
  | map m =>
    have hrec := hrec m rfl
    simp only [objectValidate]
    have hentry : ∀ kv ∈ m, Sound
        (validateEntry E rec (h.props f.properties) (h.patProps f.patternProperties)
          (f.additionalProperties == some false) kv)
        ((∀ p, Declares (h.props f.properties) kv.1 p → P p.base kv.2) ∧
          ((∀ q ∈ h.props f.properties, q.1 ≠ kv.1) →
            f.additionalProperties ≠ some false ∧
              PatternRule E.reMatch P (h.patProps f.patternProperties) kv.1 kv.2)) := by
      intro kv hkv
      simp only [validateEntry]
      cases hg : OMap.get (h.props f.properties) kv.1 with
      | some p =>
        have hd := (OMap.get_some_iff _ _ _).1 hg
        obtain ⟨pre, post, hps, _⟩ := id hd
        have hmem : (kv.1, p) ∈ h.props f.properties := by rw [hps]; simp
        simp only
        refine ((hrec kv hkv).1 _ hmem).congr ⟨fun hP => ⟨fun p' hp' => ?_, fun hq => ?_⟩, ?_⟩
        · have := (OMap.get_some_iff _ _ _).2 hp'
          rw [hg] at this; cases this; exact hP
        · exact absurd rfl (hq _ hmem)
        · rintro ⟨h1, _⟩; exact h1 p hd
      | none =>
        have hno := (OMap.get_none_iff _ _).1 hg
        have hd : ∀ p, ¬ Declares (h.props f.properties) kv.1 p := by
          intro p hp
          have := (OMap.get_some_iff _ _ _).2 hp
          simp [hg] at this
        simp only
        refine (sound_ite_err (b := f.additionalProperties == some false)
          (P := f.additionalProperties ≠ some false) (by simp)
          (pattern_sound E rec P kv.1 kv.2 _ (hrec kv hkv).2 false)).congr ?_
        constructor
        · rintro ⟨h1, h2⟩
          refine ⟨fun p hp => absurd hp (hd p), fun _ => ⟨h1, ?_⟩⟩
          simpa [PatternRule] using h2
        · rintro ⟨_, h2⟩
          have := h2 hno
          refine ⟨this.1, ?_⟩
          simpa [PatternRule] using this.2
    refine (sound_bounds natLt (· ≤ ·) natLt_false f.minProperties f.maxProperties m.length
      (sound_ite_err (missing_isEmpty_iff _ m) (forEach_sound _ _ m hentry))).congr ?_
    constructor
    · rintro ⟨h1, h2, h3⟩
      exact ⟨m, rfl, h1, h2, fun k x p hkx hp => (h3 (k, x) hkx).1 p hp,
        fun k x hkx hq => (h3 (k, x) hkx).2 hq⟩
    · rintro ⟨m', hm, h1, h2, h3, h4⟩
      cases hm
      exact ⟨h1, h2, fun kv hkv => ⟨fun p hp => h3 kv.1 kv.2 p hkv hp, fun hq => h4 kv.1 kv.2 hkv hq⟩⟩
  | _ =>
    refine sound_err ?_
    rintro ⟨x, hx, _⟩
    cases hx

/-! ### Unions -/

theorem union_sound (rec : Addr → GoVal → Out Unit) (P : Addr → GoVal → Prop) (v : GoVal)
    (l : List Addr) (hrec : ∀ a ∈ l, Sound (rec a v) (P a v)) :
    Sound (unionValidate rec v l) (∃ m ∈ l, P m v) := by
  induction l with
  | nil => simp [unionValidate, Sound]
  | cons a l ih =>
    have ih := ih (fun b hb => hrec b (List.mem_cons_of_mem _ hb))
    have ha := hrec a (by simp)
    simp only [unionValidate]
    cases hr : rec a v with
    | ok u =>
      have := ha.1 hr
      simp [Sound, this]
    | err m =>
      have := ha.2 m hr
      simp only
      refine ih.congr ?_
      simp [this]
    | panic m => simp [Sound]
    | diverge => simp [Sound]

/-! ### The least fixed point -/

theorem PatternRule.mono {isMatch : String → String → Bool} {P Q : Addr → GoVal → Prop}
    (hPQ : ∀ a v, P a v → Q a v) {pps : OMap PatternProperty} {k : String} {x : GoVal}
    (h : PatternRule isMatch P pps k x) : PatternRule isMatch Q pps k x := by
  rcases h with h | ⟨p, h1, h2, h3⟩
  · exact Or.inl h
  · exact Or.inr ⟨p, h1, h2, hPQ _ _ h3⟩

theorem Step.mono {E : Ext} {h : St} {P Q : Addr → GoVal → Prop} (hPQ : ∀ a v, P a v → Q a v)
    {a : Addr} {v : GoVal} (hs : Step E h P a v) : Step E h Q a v := by
  unfold Step at hs ⊢
  cases hsh : h.shapeAt a with
  | none => simp [hsh] at hs
  | some s =>
    rw [hsh] at hs
    cases s <;> simp only at hs ⊢ <;> try exact hs
    · obtain ⟨m, h1, h2, h3, h4, h5⟩ := hs
      exact ⟨m, h1, h2, h3, fun k x p hk hp => hPQ _ _ (h4 k x p hk hp),
        fun k x hk hq => ⟨(h5 k x hk hq).1, PatternRule.mono hPQ (h5 k x hk hq).2⟩⟩
    · obtain ⟨l, h1, h2, h3, h4⟩ := hs
      exact ⟨l, h1, h2, fun a ha x hx => hPQ _ _ (h3 a ha x hx), h4⟩
    · obtain ⟨m, h1, h2⟩ := hs
      exact ⟨m, h1, hPQ _ _ h2⟩
    · exact hPQ _ _ hs

/-- Membership unfolds one level. -/
theorem valid_iff_step (E : Ext) (h : St) (a : Addr) (v : GoVal) :
    Valid E h a v ↔ Step E h (Valid E h) a v := by
  have closed : ∀ a v, Step E h (Valid E h) a v → Valid E h a v := by
    intro a v hs P hP
    exact hP a v (Step.mono (fun b w hb => hb P hP) hs)
  refine ⟨fun hv => ?_, closed a v⟩
  exact hv (Step E h (Valid E h)) (fun b w hb => Step.mono closed hb)

theorem GoValue.arr_inv {l : List GoVal} (h : GoValue (.arr l)) : ∀ x ∈ l, GoValue x := by
  cases h; assumption

theorem GoValue.map_inv {m : List (String × GoVal)} (h : GoValue (.map m)) :
    ∀ kv ∈ m, GoValue kv.2 := by
  cases h; assumption

/-- One call of `validate` is right about one level of membership, if the nested calls are right. -/
theorem validateShape_sound (E : Ext) (h : St) (rec : Addr → GoVal → Out Unit)
    (P : Addr → GoVal → Prop) (hrec : ∀ a v, GoValue v → Sound (rec a v) (P a v)) (a : Addr) (s : Shape)
    (hs : h.shapeAt a = some s) (v : GoVal) (hv : GoValue v) :
    Sound (validateShape E rec h s v) (Step E h P a v) := by
  unfold Step
  rw [hs]
  cases s <;> simp only [validateShape]
  case any => exact decides_ok.sound
  case nil => exact (nil_decides v).sound
  case object f =>
    refine object_sound E rec P h f v ?_
    rintro m rfl kv hkv
    have := GoValue.map_inv hv kv hkv
    exact ⟨fun p _ => hrec _ _ this, fun p _ => hrec _ _ this⟩
  case array f =>
    refine array_sound E rec P f v ?_
    rintro l rfl a _ x hx
    exact hrec _ _ (GoValue.arr_inv hv x hx)
  case string f => exact (string_decides E f v).sound
  case integer f => exact (integer_decides_full E f v hv).sound
  case number f => exact (number_decides E f v).sound
  case datetime fmt => exact (dateTime_decides E fmt v).sound
  case datetimeOnly => exact (time_decides E _ v).sound
  case dateOnly => exact (time_decides E _ v).sound
  case timeOnly => exact (time_decides E _ v).sound
  case file f => exact (file_decides f v).sound
  case boolean e => exact (boolean_decides e v).sound
  case union anyOf e => exact union_sound rec P v _ (fun b _ => hrec b v hv)
  case json => exact decides_ok.sound
  case unknown => exact sound_err not_false
  case recursive hd => exact hrec hd v hv

/-- Validation is right whenever it returns. -/
theorem validate_sound (E : Ext) (h : St) (n : Nat) (a : Addr) (v : GoVal) (hv : GoValue v) :
    Sound (validate E h n a v) (Valid E h a v) := by
  induction n generalizing a v with
  | zero => simp [validate, Sound]
  | succ n ih =>
    simp only [validate]
    cases hs : h.shapeAt a with
    | none => simp [Sound]
    | some s =>
      refine (validateShape_sound E h (validate E h n) (Valid E h) (fun b w hw => ih b w hw) a s hs v hv).congr ?_
      exact (valid_iff_step E h a v).symm

end GoRaml
