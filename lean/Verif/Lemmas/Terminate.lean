import Verif.Lemmas.Validate

namespace GoRaml

open Spec

/-- The nested calls that validating `v` against `s` may make. -/
inductive Sub (h : St) : Shape → GoVal → Addr → GoVal → Prop
  | item {f l a x} : f.items = some a → x ∈ l → Sub h (.array f) (.arr l) a x
  | prop {f m p kv} : p ∈ h.props f.properties → kv ∈ m → Sub h (.object f) (.map m) p.2.base kv.2
  | pat {f m p kv} : p ∈ h.patProps f.patternProperties → kv ∈ m →
      Sub h (.object f) (.map m) p.2.base kv.2
  | member {anyOf e v a} : a ∈ h.slice anyOf → Sub h (.union anyOf e) v a v
  | head {hd v} : Sub h (.recursive hd) v hd v

/-- Outcomes of type `Out α` that abort: the same panic or divergence. -/
inductive SameBad : {α β : Type} → Out α → Out β → Prop
  | panic {α β m} : SameBad (.panic m : Out α) (.panic m : Out β)
  | diverge {α β} : SameBad (.diverge : Out α) (.diverge : Out β)

def Out.Bad {α : Type} (o : Out α) : Prop := SameBad o o

theorem Out.bad_iff {α : Type} (o : Out α) : o.Bad ↔ (∃ m, o = .panic m) ∨ o = .diverge := by
  cases o
  · simp [Out.Bad]; nofun
  · simp [Out.Bad]; nofun
  · simp [Out.Bad]; exact .panic
  · simp [Out.Bad]; exact .diverge

theorem err_not_bad {α : Type} {m : String} : ¬ (.err m : Out α).Bad := by intro h; cases h

theorem validateItems_bad (E : Ext) (rec : Addr → GoVal → Out Unit) (items : Option Addr)
    (unique : Bool) (l : List GoVal) (seen : List Nat)
    (hb : (validateItems E rec items unique l seen).Bad) :
    ∃ a x, items = some a ∧ x ∈ l ∧ SameBad (rec a x) (validateItems E rec items unique l seen) := by
  induction l generalizing seen with
  | nil => simp [validateItems, Out.Bad] at hb; nomatch hb
  | cons y ys ih =>
    simp only [validateItems] at hb ⊢
    cases hy : validateItem rec items y with
    | ok u =>
      simp only [hy, Out.bind] at hb ⊢
      cases unique
      · simp only [Bool.false_eq_true, if_false] at hb ⊢
        obtain ⟨a, x, h1, h2, h3⟩ := ih _ hb
        exact ⟨a, x, h1, List.mem_cons_of_mem _ h2, h3⟩
      · simp only [if_true] at hb ⊢
        cases hh : E.hash y with
        | none => simp only [hh] at hb; nomatch hb
        | some k =>
          simp only [hh] at hb ⊢
          obtain ⟨a, x, h1, h2, h3⟩ := ih _ hb
          exact ⟨a, x, h1, List.mem_cons_of_mem _ h2, h3⟩
    | err m => simp only [hy, Out.bind] at hb; nomatch hb
    | panic m =>
      cases items with
      | none => simp [validateItem] at hy
      | some a =>
        simp only [validateItem] at hy
        exact ⟨a, y, rfl, by simp, by rw [hy]; simp only [Out.bind]; exact .panic⟩
    | diverge =>
      cases items with
      | none => simp [validateItem] at hy
      | some a =>
        simp only [validateItem] at hy
        exact ⟨a, y, rfl, by simp, by rw [hy]; simp only [Out.bind]; exact .diverge⟩

theorem pattern_bad (E : Ext) (rec : Addr → GoVal → Out Unit) (k : String) (x : GoVal)
    (pps : OMap PatternProperty) (b : Bool)
    (hb : (validatePatternProperty E rec k x pps b).Bad) :
    ∃ p ∈ pps, SameBad (rec p.2.base x) (validatePatternProperty E rec k x pps b) := by
  induction pps generalizing b with
  | nil => cases b <;> simp [validatePatternProperty] at hb <;> nomatch hb
  | cons q pps ih =>
    obtain ⟨key, pp⟩ := q
    simp only [validatePatternProperty] at hb ⊢
    cases hm : E.reMatch pp.pattern k with
    | false =>
      simp only [hm, Bool.not_false, if_true] at hb ⊢
      obtain ⟨p, h1, h2⟩ := ih _ hb
      exact ⟨p, List.mem_cons_of_mem _ h1, h2⟩
    | true =>
      simp only [hm, Bool.not_true, Bool.false_eq_true, if_false] at hb ⊢
      cases hr : rec pp.base x with
      | ok u => simp only [hr] at hb; nomatch hb
      | err m =>
        simp only [hr] at hb ⊢
        obtain ⟨p, h1, h2⟩ := ih _ hb
        exact ⟨p, List.mem_cons_of_mem _ h1, h2⟩
      | panic m => exact ⟨(key, pp), by simp, by simp only [hr]; exact .panic⟩
      | diverge => exact ⟨(key, pp), by simp, by simp only [hr]; exact .diverge⟩

theorem forEach_bad {α : Type} (f : α → Out Unit) (l : List α) (hb : (Out.forEach f l).Bad) :
    ∃ x ∈ l, (f x).Bad ∧ SameBad (f x) (Out.forEach f l) := by
  induction l with
  | nil => simp [Out.forEach] at hb; nomatch hb
  | cons y ys ih =>
    simp only [Out.forEach] at hb ⊢
    cases hy : f y with
    | ok u =>
      simp only [hy, Out.bind] at hb ⊢
      obtain ⟨x, h1, h2⟩ := ih hb
      exact ⟨x, List.mem_cons_of_mem _ h1, h2⟩
    | err m => simp only [hy, Out.bind] at hb; nomatch hb
    | panic m =>
      refine ⟨y, by simp, ?_, ?_⟩ <;> simp only [hy, Out.bind, Out.Bad] <;> exact .panic
    | diverge =>
      refine ⟨y, by simp, ?_, ?_⟩ <;> simp only [hy, Out.bind, Out.Bad] <;> exact .diverge

theorem union_bad (rec : Addr → GoVal → Out Unit) (v : GoVal) (l : List Addr)
    (hb : (unionValidate rec v l).Bad) : ∃ a ∈ l, SameBad (rec a v) (unionValidate rec v l) := by
  induction l with
  | nil => simp [unionValidate] at hb; nomatch hb
  | cons y ys ih =>
    simp only [unionValidate] at hb ⊢
    cases hy : rec y v with
    | ok u => simp only [hy] at hb; nomatch hb
    | err m =>
      simp only [hy] at hb ⊢
      obtain ⟨x, h1, h2⟩ := ih hb
      exact ⟨x, List.mem_cons_of_mem _ h1, h2⟩
    | panic m => exact ⟨y, by simp, by rw [hy]; exact .panic⟩
    | diverge => exact ⟨y, by simp, by rw [hy]; exact .diverge⟩

theorem SameBad.trans {α β γ : Type} {a : Out α} {b : Out β} {c : Out γ} (h1 : SameBad a b)
    (h2 : SameBad b c) : SameBad a c := by
  cases h1 <;> cases h2 <;> constructor

theorem SameBad.eq_panic {o : Out Unit} {m : String} (h : SameBad o (.panic m : Out Unit)) :
    o = .panic m := by
  cases h; rfl

theorem SameBad.eq_diverge {o : Out Unit} (h : SameBad o (.diverge : Out Unit)) : o = .diverge := by
  cases h; rfl

theorem Decides.not_bad {o : Out Unit} {P : Prop} (h : Decides o P) : ¬ o.Bad := by
  rcases h with ⟨h1, _⟩ | ⟨⟨m, h1⟩, _⟩ <;> subst h1 <;> nofun

theorem integer_not_bad (E : Ext) (f : IntegerF) (v : GoVal) : ¬ (f.validate E v).Bad := by
  cases hi : integerOf E v with
  | none =>
    unfold IntegerF.validate
    rw [hi]; nofun
  | some i => exact (integer_decides E f v i hi).not_bad

/-- A panic or divergence of a call comes from a nested call. -/
theorem validateShape_bad (E : Ext) (rec : Addr → GoVal → Out Unit) (h : St) (s : Shape) (v : GoVal)
    (hb : (validateShape E rec h s v).Bad) :
    ∃ a x, Sub h s v a x ∧ SameBad (rec a x) (validateShape E rec h s v) := by
  cases s <;> simp only [validateShape] at hb ⊢
  case any => nomatch hb
  case nil => exact absurd hb (nil_decides v).not_bad
  case object f =>
    cases v <;> simp only [objectValidate] at hb ⊢ <;> try exact absurd hb err_not_bad
    rename_i m
    split_ifs at hb ⊢ <;> try exact absurd hb err_not_bad
    obtain ⟨kv, h1, h2, h3⟩ := forEach_bad _ _ hb
    simp only [validateEntry] at h2 h3
    cases hg : OMap.get (h.props f.properties) kv.1 with
    | some p =>
      simp only [hg] at h2 h3
      have hd := (OMap.get_some_iff _ _ _).1 hg
      obtain ⟨pre, post, hps, _⟩ := hd
      have hmem : (kv.1, p) ∈ h.props f.properties := by rw [hps]; simp
      exact ⟨_, _, Sub.prop hmem h1, h3⟩
    | none =>
      simp only [hg] at h2 h3
      split_ifs at h2 h3
      · nomatch h2
      · obtain ⟨p, h4, h5⟩ := pattern_bad E rec kv.1 kv.2 _ _ h2
        exact ⟨_, _, Sub.pat h4 h1, h5.trans h3⟩
  case array f =>
    cases v <;> simp only [arrayValidate] at hb ⊢ <;> try exact absurd hb err_not_bad
    rename_i l
    split_ifs at hb ⊢ <;> try exact absurd hb err_not_bad
    have hv := validateItems_bad E rec f.items (f.uniqueItems == some true) l []
    cases ho : validateItems E rec f.items (f.uniqueItems == some true) l [] with
    | ok out =>
      simp only [ho, Out.bind] at hb
      split_ifs at hb <;> nomatch hb
    | err m => simp only [ho, Out.bind] at hb; nomatch hb
    | panic m =>
      rw [ho] at hv
      obtain ⟨a, x, h1, h2, h3⟩ := hv SameBad.panic
      refine ⟨a, x, Sub.item h1 h2, h3.trans ?_⟩
      simp only [Out.bind]; exact .panic
    | diverge =>
      rw [ho] at hv
      obtain ⟨a, x, h1, h2, h3⟩ := hv SameBad.diverge
      refine ⟨a, x, Sub.item h1 h2, h3.trans ?_⟩
      simp only [Out.bind]; exact .diverge
  case string f => exact absurd hb (string_decides E f v).not_bad
  case integer f => exact absurd hb (integer_not_bad E f v)
  case number f => exact absurd hb (number_decides E f v).not_bad
  case datetime fmt => exact absurd hb (dateTime_decides E fmt v).not_bad
  case datetimeOnly => exact absurd hb (time_decides E _ v).not_bad
  case dateOnly => exact absurd hb (time_decides E _ v).not_bad
  case timeOnly => exact absurd hb (time_decides E _ v).not_bad
  case file f => exact absurd hb (file_decides f v).not_bad
  case boolean e => exact absurd hb (boolean_decides e v).not_bad
  case union anyOf e =>
    obtain ⟨a, h1, h2⟩ := union_bad rec v _ hb
    exact ⟨a, v, Sub.member h1, h2⟩
  case json => nomatch hb
  case unknown => nomatch hb
  case recursive hd =>
    refine ⟨hd, v, Sub.head, ?_⟩
    exact hb

/-! ### Fuel monotonicity -/

/-- `rec'` agrees with `rec` wherever `rec` returns. -/
def Extends (rec rec' : Addr → GoVal → Out Unit) : Prop :=
  ∀ a v, rec a v ≠ .diverge → rec' a v = rec a v

theorem validateItems_mono {E : Ext} {rec rec' : Addr → GoVal → Out Unit} (hr : Extends rec rec')
    (items : Option Addr) (unique : Bool) (l : List GoVal) (seen : List Nat)
    (hd : validateItems E rec items unique l seen ≠ .diverge) :
    validateItems E rec' items unique l seen = validateItems E rec items unique l seen := by
  induction l generalizing seen with
  | nil => rfl
  | cons y ys ih =>
    have hi : validateItem rec items y ≠ .diverge → validateItem rec' items y = validateItem rec items y := by
      cases items with
      | none => simp [validateItem]
      | some a => exact hr a y
    simp only [validateItems] at hd ⊢
    by_cases hc : validateItem rec items y = .diverge
    · simp [hc, Out.bind] at hd
    · rw [hi hc]
      cases hv : validateItem rec items y with
      | ok u =>
        simp only [hv, Out.bind] at hd ⊢
        cases unique
        · simp only [Bool.false_eq_true, if_false] at hd ⊢
          exact ih _ hd
        · simp only [if_true] at hd ⊢
          cases hh : E.hash y with
          | none => rfl
          | some k => simp only [hh] at hd ⊢; exact ih _ hd
      | err m => rfl
      | panic m => rfl
      | diverge => exact absurd hv hc

theorem pattern_mono {E : Ext} {rec rec' : Addr → GoVal → Out Unit} (hr : Extends rec rec')
    (k : String) (x : GoVal) (pps : OMap PatternProperty) (b : Bool)
    (hd : validatePatternProperty E rec k x pps b ≠ .diverge) :
    validatePatternProperty E rec' k x pps b = validatePatternProperty E rec k x pps b := by
  induction pps generalizing b with
  | nil => rfl
  | cons q pps ih =>
    obtain ⟨key, pp⟩ := q
    simp only [validatePatternProperty] at hd ⊢
    split_ifs at hd ⊢
    · exact ih _ hd
    · by_cases hc : rec pp.base x = .diverge
      · simp [hc] at hd
      · rw [hr _ _ hc]
        cases hv : rec pp.base x with
        | ok u => rfl
        | err m => simp only [hv] at hd ⊢; exact ih _ hd
        | panic m => rfl
        | diverge => exact absurd hv hc

theorem forEach_mono {α : Type} {f g : α → Out Unit} (l : List α)
    (hfg : ∀ x ∈ l, f x ≠ .diverge → g x = f x) (hd : Out.forEach f l ≠ .diverge) :
    Out.forEach g l = Out.forEach f l := by
  induction l with
  | nil => rfl
  | cons y ys ih =>
    simp only [Out.forEach] at hd ⊢
    by_cases hc : f y = .diverge
    · simp [hc, Out.bind] at hd
    · rw [hfg y (by simp) hc]
      cases hv : f y with
      | ok u =>
        simp only [hv, Out.bind] at hd ⊢
        exact ih (fun x hx => hfg x (List.mem_cons_of_mem _ hx)) hd
      | err m => rfl
      | panic m => rfl
      | diverge => exact absurd hv hc

theorem union_mono {rec rec' : Addr → GoVal → Out Unit} (hr : Extends rec rec') (v : GoVal)
    (l : List Addr) (hd : unionValidate rec v l ≠ .diverge) :
    unionValidate rec' v l = unionValidate rec v l := by
  induction l with
  | nil => rfl
  | cons y ys ih =>
    simp only [unionValidate] at hd ⊢
    by_cases hc : rec y v = .diverge
    · simp [hc] at hd
    · rw [hr _ _ hc]
      cases hv : rec y v with
      | ok u => rfl
      | err m => simp only [hv] at hd ⊢; exact ih hd
      | panic m => rfl
      | diverge => exact absurd hv hc

theorem validateShape_mono {E : Ext} {rec rec' : Addr → GoVal → Out Unit} (hr : Extends rec rec')
    (h : St) (s : Shape) (v : GoVal) (hd : validateShape E rec h s v ≠ .diverge) :
    validateShape E rec' h s v = validateShape E rec h s v := by
  cases s <;> simp only [validateShape] at hd ⊢
  case object f =>
    cases v <;> simp only [objectValidate] at hd ⊢
    split_ifs at hd ⊢ <;> try rfl
    refine forEach_mono _ (fun kv _ hkv => ?_) hd
    simp only [validateEntry] at hkv ⊢
    cases hg : OMap.get (h.props f.properties) kv.1 with
    | some p => simp only [hg] at hkv ⊢; exact hr _ _ hkv
    | none =>
      simp only [hg] at hkv ⊢
      split_ifs at hkv ⊢ <;> try rfl
      exact pattern_mono hr _ _ _ _ hkv
  case array f =>
    cases v <;> simp only [arrayValidate] at hd ⊢
    split_ifs at hd ⊢ <;> try rfl
    by_cases hc : validateItems E rec f.items (f.uniqueItems == some true) ‹_› [] = .diverge
    · simp [hc, Out.bind] at hd
    · rw [validateItems_mono hr _ _ _ _ hc]
  case union anyOf e => exact union_mono hr v _ hd
  case recursive hd' => exact hr _ _ hd

/-- More fuel does not change an outcome. -/
theorem validate_mono_succ (E : Ext) (h : St) (n : Nat) :
    Extends (validate E h n) (validate E h (n + 1)) := by
  induction n with
  | zero => intro a v hd; simp [validate] at hd
  | succ n ih =>
    intro a v hd
    rw [validate] at hd ⊢
    conv_rhs => rw [validate]
    cases hs : h.shapeAt a with
    | none => rfl
    | some s =>
      rw [hs] at hd
      exact validateShape_mono ih h s v hd

theorem validate_mono (E : Ext) (h : St) {n m : Nat} (hnm : n ≤ m) {a : Addr} {v : GoVal}
    (hd : validate E h n a v ≠ .diverge) : validate E h m a v = validate E h n a v := by
  induction hnm with
  | refl => rfl
  | step hk ih =>
    rename_i k
    rw [validate_mono_succ E h _ a v (by rw [ih]; exact hd), ih]

/-- Two runs that return give the same outcome. -/
theorem validate_det (E : Ext) (h : St) {n m : Nat} {a : Addr} {v : GoVal}
    (hn : validate E h n a v ≠ .diverge) (hm : validate E h m a v ≠ .diverge) :
    validate E h n a v = validate E h m a v := by
  rcases Nat.le_total n m with hl | hl
  · exact (validate_mono E h hl hn).symm
  · exact validate_mono E h hl hm

/-! ### No panic -/

theorem Spec.Closed.sub {h : St} (hc : Closed h) {a : Addr} {s : Shape} (hs : h.shapeAt a = some s)
    {v x : GoVal} {b : Addr} (hsub : Sub h s v b x) : b < h.bases.length := by
  simp only [St.shapeAt] at hs
  cases hb : h.base a with
  | none => simp [hb] at hs
  | some bb =>
    simp only [hb, Option.bind_some] at hs
    obtain ⟨s', h1, h2⟩ := hc a bb hb
    rw [hs] at h1; cases h1
    cases hsub with
    | item h3 h4 => exact h2 _ h3
    | prop h3 h4 => exact h2.1 _ h3
    | pat h3 h4 => exact h2.2 _ h3
    | member h3 => exact h2 _ h3
    | head => exact h2

theorem Spec.Closed.shape {h : St} (hc : Closed h) {a : Addr} (ha : a < h.bases.length) :
    ∃ s, h.shapeAt a = some s := by
  have hb : h.base a = some (h.bases[a]) := by simp [St.base, ha]
  obtain ⟨s, h1, _⟩ := hc a _ hb
  exact ⟨s, by simp [St.shapeAt, hb, h1]⟩

theorem validate_no_panic (E : Ext) {h : St} (hc : Closed h) (n : Nat) (a : Addr)
    (ha : a < h.bases.length) (v : GoVal) (m : String) : validate E h n a v ≠ .panic m := by
  induction n generalizing a v with
  | zero => simp [validate]
  | succ n ih =>
    intro hp
    obtain ⟨s, hs⟩ := hc.shape ha
    simp only [validate, hs] at hp
    obtain ⟨b, x, h1, h2⟩ := validateShape_bad E (validate E h n) h s v (by rw [hp]; exact .panic)
    rw [hp] at h2
    have := ih b (hc.sub hs h1) x
    exact this h2.eq_panic

/-! ### Termination -/

/-- Validation of `v` against `a` returns. -/
def Returns (E : Ext) (h : St) (a : Addr) (v : GoVal) : Prop := ∃ n, validate E h n a v ≠ .diverge

/-- Finitely many calls that each return have a common fuel. -/
theorem common_fuel (E : Ext) (h : St) (l : List (Addr × GoVal)) (hl : ∀ p ∈ l, Returns E h p.1 p.2) :
    ∃ n, ∀ p ∈ l, validate E h n p.1 p.2 ≠ .diverge := by
  induction l with
  | nil => exact ⟨0, by simp⟩
  | cons q l ih =>
    obtain ⟨n, hn⟩ := ih (fun p hp => hl p (List.mem_cons_of_mem _ hp))
    obtain ⟨k, hk⟩ := hl q (by simp)
    refine ⟨max n k, ?_⟩
    intro p hp
    rcases List.mem_cons.1 hp with rfl | hp
    · rw [validate_mono E h (Nat.le_max_right n k) hk]; exact hk
    · rw [validate_mono E h (Nat.le_max_left n k) (hn p hp)]; exact hn p hp

/-- The nested calls, as a finite list. -/
def subCalls (h : St) (s : Shape) (v : GoVal) : List (Addr × GoVal) :=
  match s, v with
  | .array f, .arr l => match f.items with | some a => l.map (fun x => (a, x)) | none => []
  | .object f, .map m =>
    (h.props f.properties).flatMap (fun p => m.map fun kv => (p.2.base, kv.2)) ++
    (h.patProps f.patternProperties).flatMap (fun p => m.map fun kv => (p.2.base, kv.2))
  | .union anyOf _, v => (h.slice anyOf).map fun a => (a, v)
  | .recursive hd, v => [(hd, v)]
  | _, _ => []

theorem mem_subCalls_of_sub {h : St} {s : Shape} {v : GoVal} {a : Addr} {x : GoVal}
    (hs : Sub h s v a x) : (a, x) ∈ subCalls h s v := by
  cases hs with
  | item h1 h2 => simp [subCalls, h1, h2]
  | @prop f m p kv h1 h2 =>
    simp only [subCalls, List.mem_append, List.mem_flatMap, List.mem_map]
    exact Or.inl ⟨p, h1, kv, h2, rfl⟩
  | @pat f m p kv h1 h2 =>
    simp only [subCalls, List.mem_append, List.mem_flatMap, List.mem_map]
    exact Or.inr ⟨p, h1, kv, h2, rfl⟩
  | member h1 => simpa [subCalls] using h1
  | head => simp [subCalls]

theorem sub_of_mem_subCalls {h : St} {s : Shape} {v : GoVal} {a : Addr} {x : GoVal}
    (hs : (a, x) ∈ subCalls h s v) : Sub h s v a x := by
  unfold subCalls at hs
  split at hs
  · split at hs
    · rename_i h1
      simp only [List.mem_map, Prod.mk.injEq] at hs
      obtain ⟨y, h2, rfl, rfl⟩ := hs
      exact .item h1 h2
    · simp at hs
  · simp only [List.mem_append, List.mem_flatMap, List.mem_map, Prod.mk.injEq] at hs
    rcases hs with ⟨p, h1, kv, h2, rfl, rfl⟩ | ⟨p, h1, kv, h2, rfl, rfl⟩
    · exact .prop h1 h2
    · exact .pat h1 h2
  · simp only [List.mem_map, Prod.mk.injEq] at hs
    obtain ⟨y, h2, rfl, rfl⟩ := hs
    exact .member h2
  · simp only [List.mem_singleton, Prod.mk.injEq] at hs
    obtain ⟨rfl, rfl⟩ := hs
    exact .head
  · simp at hs

theorem returns_of_sub (E : Ext) (h : St) (a : Addr) (v : GoVal)
    (hsub : ∀ s, h.shapeAt a = some s → ∀ b x, Sub h s v b x → Returns E h b x) : Returns E h a v := by
  cases hs : h.shapeAt a with
  | none => exact ⟨1, by simp [validate, hs]⟩
  | some s =>
    obtain ⟨n, hn⟩ := common_fuel E h (subCalls h s v)
      (fun p hp => hsub s hs p.1 p.2 (sub_of_mem_subCalls hp))
    refine ⟨n + 1, ?_⟩
    simp only [validate, hs]
    intro hd
    obtain ⟨b, x, h1, h2⟩ := validateShape_bad E (validate E h n) h s v (by rw [hd]; exact .diverge)
    rw [hd] at h2
    have := hn (b, x) (mem_subCalls_of_sub h1)
    exact this h2.eq_diverge

/-- On guarded type graphs validation returns for every value. -/
theorem validate_returns (E : Ext) {h : St} (hg : Guarded h) (a : Addr) (v : GoVal) :
    Returns E h a v := by
  obtain ⟨rank, hrank⟩ := hg
  -- outer induction on the size of the value, inner on the rank
  suffices H : ∀ sz v, sizeOf v = sz → ∀ r a, rank a = r → Returns E h a v from H _ v rfl _ a rfl
  intro sz
  induction sz using Nat.strong_induction_on with
  | _ sz ihv =>
    intro v hv r
    induction r using Nat.strong_induction_on with
    | _ r ihr =>
      intro a ha
      refine returns_of_sub E h a v ?_
      intro s hs b x hsub
      cases hsub with
      | @item f l a x h1 h2 =>
        refine ihv (sizeOf x) ?_ x rfl _ _ rfl
        have := List.sizeOf_lt_of_mem h2
        rw [← hv]; simp; omega
      | @prop f m p kv h1 h2 =>
        refine ihv (sizeOf kv.2) ?_ kv.2 rfl _ _ rfl
        have := List.sizeOf_lt_of_mem h2
        obtain ⟨k, y⟩ := kv
        rw [← hv]; simp at this ⊢; omega
      | @pat f m p kv h1 h2 =>
        refine ihv (sizeOf kv.2) ?_ kv.2 rfl _ _ rfl
        have := List.sizeOf_lt_of_mem h2
        obtain ⟨k, y⟩ := kv
        rw [← hv]; simp at this ⊢; omega
      | member h1 =>
        exact ihr _ (ha ▸ (hrank a).1 _ _ hs _ h1) _ rfl
      | head =>
        exact ihr _ (ha ▸ (hrank a).2 _ hs) _ rfl

/-- On closed and guarded heaps validation decides membership. -/
theorem validate_decides (E : Ext) {h : St} (hc : Closed h) (hg : Guarded h) {a : Addr}
    (ha : a < h.bases.length) {v : GoVal} (hv : GoValue v) :
    ∃ n, ∀ k, n ≤ k → Decides (validate E h k a v) (Valid E h a v) := by
  obtain ⟨n, hn⟩ := validate_returns E hg a v
  refine ⟨n, fun k hk => ?_⟩
  rw [validate_mono E h hk hn]
  have hs := validate_sound E h n a v hv
  have hp := validate_no_panic E hc n a ha v
  cases ho : validate E h n a v with
  | ok u => exact Or.inl ⟨rfl, hs.1 ho⟩
  | err m => exact Or.inr ⟨⟨m, rfl⟩, hs.2 m ho⟩
  | panic m => exact absurd ho (hp m)
  | diverge => exact absurd ho hn

theorem accepts_iff_valid (E : Ext) {h : St} (hc : Closed h) (hg : Guarded h) {a : Addr}
    (ha : a < h.bases.length) {v : GoVal} (hv : GoValue v) :
    (Accepts E h a v ↔ Valid E h a v) ∧ (Rejects E h a v ↔ ¬ Valid E h a v) := by
  obtain ⟨n, hn⟩ := validate_decides E hc hg ha hv
  have hd := hn n le_rfl
  constructor
  · constructor
    · rintro ⟨k, hk⟩; exact (validate_sound E h k a v hv).1 hk
    · intro hV; exact ⟨n, hd.ok_iff.2 hV⟩
  · constructor
    · rintro ⟨k, m, hk⟩; exact (validate_sound E h k a v hv).2 m hk
    · intro hV
      obtain ⟨m, hm⟩ := hd.err_iff.2 hV
      exact ⟨n, m, hm⟩

end GoRaml
