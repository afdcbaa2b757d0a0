import Verif.Lemmas.Scalars
import Verif.Model.Inherit

namespace GoRaml

open Spec

theorem Out.bind_ok {α β : Type} {o : Out α} {f : α → Out β} {b : β} :
    o.bind f = .ok b ↔ ∃ a, o = .ok a ∧ f a = .ok b := by
  cases o <;> simp [Out.bind]

/-! ## Enums -/

theorem goEq_true {e v : GoVal} (h : GoVal.goEq e v = .ok true) : e = v ∧ v ≠ .float .nan := by
  cases e <;> cases v <;> simp_all [GoVal.goEq, F64.eq_iff]
  rw [← h.1]; exact h.2

theorem enumHas_true {x : GoVal} {es : List GoVal} (h : enumHas x es = .ok true) : x ∈ es ∧ x ≠ .float .nan := by
  induction es with
  | nil => simp [enumHas] at h
  | cons e es ih =>
    simp only [enumHas] at h
    obtain ⟨b, hb, h⟩ := Out.bind_ok.1 h
    cases b with
    | true =>
      obtain ⟨h1, h2⟩ := goEq_true hb
      exact ⟨by simp [h1], h2⟩
    | false =>
      have := ih (by simpa using h)
      exact ⟨List.mem_cons_of_mem _ this.1, this.2⟩

theorem compatible_true {s t : List GoVal} (h : isCompatibleEnum s t = .ok true) :
    ∀ v ∈ t, v ∈ s ∧ v ≠ .float .nan := by
  induction t with
  | nil => simp
  | cons v t ih =>
    simp only [isCompatibleEnum] at h
    obtain ⟨b, hb, h⟩ := Out.bind_ok.1 h
    cases b with
    | false => simp at h
    | true =>
      intro w hw
      rcases List.mem_cons.1 hw with rfl | hw
      · exact enumHas_true hb
      · exact ih (by simpa using h) w hw

theorem compatible_scalar {s t : List GoVal} (ht : ∀ v ∈ t, v.isScalarVal = true) :
    ∃ b, isCompatibleEnum s t = .ok b ∧ (b = true ↔ ∀ v ∈ t, v ∈ s ∧ v ≠ .float .nan) := by
  induction t with
  | nil => exact ⟨true, rfl, by simp⟩
  | cons v t ih =>
    obtain ⟨b, hb, hb'⟩ := enumHas_scalar (ht v (by simp)) s
    obtain ⟨c, hc, hc'⟩ := ih (fun w hw => ht w (List.mem_cons_of_mem _ hw))
    cases b with
    | false =>
      refine ⟨false, by simp [isCompatibleEnum, hb, Out.bind], ?_⟩
      simp only [Bool.false_eq_true, false_iff]
      intro h
      exact absurd (hb'.2 (h v (by simp))) (by simp)
    | true =>
      refine ⟨c, by simp [isCompatibleEnum, hb, Out.bind, hc], ?_⟩
      rw [hc']
      constructor
      · intro h w hw
        rcases List.mem_cons.1 hw with rfl | hw
        · exact hb'.1 rfl
        · exact h w hw
      · intro h w hw; exact h w (List.mem_cons_of_mem _ hw)

theorem inheritEnum_ok {t s r : Option (List GoVal)} (h : inheritEnum t s = .ok r) (x : GoVal) :
    (∀ es, r = some es → x ∈ es) ↔ (∀ es, t = some es → x ∈ es) ∧ (∀ es, s = some es → x ∈ es) := by
  cases t with
  | none => simp [inheritEnum] at h; subst h; simp
  | some t =>
    cases s with
    | none => simp [inheritEnum] at h; subst h; simp
    | some s =>
      simp only [inheritEnum] at h
      obtain ⟨b, hb, h⟩ := Out.bind_ok.1 h
      cases b with
      | false => simp at h
      | true =>
        simp at h; subst h
        simp only [Option.some.injEq, forall_eq']
        exact ⟨fun hx => ⟨hx, (compatible_true hb x hx).1⟩, fun hx => hx.1⟩

/-- The child's list of allowed values is within the parent's. -/
theorem inheritEnum_decides {t s : Option (List GoVal)} (ht : ∀ es, t = some es → ∀ v ∈ es, v.isScalarVal = true) :
    ((∃ r, inheritEnum t s = .ok r) ∨ ∃ m, inheritEnum t s = .err m) ∧
    ((∃ m, inheritEnum t s = .err m) ↔ ∃ es es', t = some es ∧ s = some es' ∧ ∃ v ∈ es, v ∉ es' ∨ v = .float .nan) := by
  cases t with
  | none => simp [inheritEnum]
  | some t =>
    cases s with
    | none => simp [inheritEnum]
    | some s =>
      obtain ⟨b, hb, hb'⟩ := compatible_scalar (s := s) (ht t rfl)
      simp only [inheritEnum, hb, Out.bind]
      cases b with
      | true =>
        have := hb'.1 rfl
        simp
        intro v hv
        exact ⟨(this v hv).1, (this v hv).2⟩
      | false =>
        simp
        by_contra hn
        push Not at hn
        exact absurd (hb'.2 hn) (by simp)

/-! ## Bounds -/

section
variable {α : Type} (lt : α → α → Bool)

theorem inheritLower_ok {t s r : Option α} (h : inheritLower lt t s = .ok r) (x : α)
    (hlaw : ∀ a b, t = some a → s = some b → lt a b = false → lt x a = false → lt x b = false) :
    belowMin lt x r = false ↔ belowMin lt x t = false ∧ belowMin lt x s = false := by
  cases t with
  | none => simp [inheritLower] at h; subst h; simp [belowMin]
  | some a =>
    cases s with
    | none => simp [inheritLower] at h; subst h; simp [belowMin]
    | some b =>
      simp only [inheritLower] at h
      split at h
      · simp at h
      · rename_i hab
        simp at h; subst h
        simp only [belowMin]
        exact ⟨fun hx => ⟨hx, hlaw a b rfl rfl (by simpa using hab) hx⟩, fun hx => hx.1⟩

theorem inheritUpper_ok {t s r : Option α} (h : inheritUpper lt t s = .ok r) (x : α)
    (hlaw : ∀ a b, t = some a → s = some b → lt b a = false → lt a x = false → lt b x = false) :
    aboveMax lt x r = false ↔ aboveMax lt x t = false ∧ aboveMax lt x s = false := by
  cases t with
  | none => simp [inheritUpper] at h; subst h; simp [aboveMax]
  | some a =>
    cases s with
    | none => simp [inheritUpper] at h; subst h; simp [aboveMax]
    | some b =>
      simp only [inheritUpper] at h
      split at h
      · simp at h
      · rename_i hab
        simp at h; subst h
        simp only [aboveMax]
        exact ⟨fun hx => ⟨hx, hlaw a b rfl rfl (by simpa using hab) hx⟩, fun hx => hx.1⟩

theorem inheritLower_cases (t s : Option α) :
    (∃ r, inheritLower lt t s = .ok r ∧ ¬ ∃ a b, t = some a ∧ s = some b ∧ lt a b = true) ∨
    (∃ m, inheritLower lt t s = .err m ∧ ∃ a b, t = some a ∧ s = some b ∧ lt a b = true) := by
  cases t <;> cases s <;> simp [inheritLower]
  split <;> simp_all

theorem inheritUpper_cases (t s : Option α) :
    (∃ r, inheritUpper lt t s = .ok r ∧ ¬ ∃ a b, t = some a ∧ s = some b ∧ lt b a = true) ∨
    (∃ m, inheritUpper lt t s = .err m ∧ ∃ a b, t = some a ∧ s = some b ∧ lt b a = true) := by
  cases t <;> cases s <;> simp [inheritUpper]
  split <;> simp_all

end

/-- Combine a lower and an upper bound into `Between`. -/
theorem between_inherit {α : Type} (lt : α → α → Bool) (le : α → α → Prop)
    (hle : ∀ a b, lt b a = false ↔ le a b) {lo hi lo' hi' rlo rhi : Option α}
    (h1 : inheritLower lt lo lo' = .ok rlo) (h2 : inheritUpper lt hi hi' = .ok rhi) (x : α)
    (hl : ∀ a b, lo = some a → lo' = some b → lt a b = false → lt x a = false → lt x b = false)
    (hu : ∀ a b, hi = some a → hi' = some b → lt b a = false → lt a x = false → lt b x = false) :
    Between le rlo rhi x ↔ Between le lo hi x ∧ Between le lo' hi' x := by
  rw [← inBounds_iff lt le hle, ← inBounds_iff lt le hle, ← inBounds_iff lt le hle,
    inheritLower_ok lt h1 x hl, inheritUpper_ok lt h2 x hu]
  tauto

theorem intLt_law (x a b : Int) : intLt a b = false → intLt x a = false → intLt x b = false := by
  simp [intLt]; omega
theorem intLt_law' (x a b : Int) : intLt b a = false → intLt a x = false → intLt b x = false := by
  simp [intLt]; omega
theorem natLt_law (x a b : Nat) : natLt a b = false → natLt x a = false → natLt x b = false := by
  simp [natLt]; omega
theorem natLt_law' (x a b : Nat) : natLt b a = false → natLt a x = false → natLt b x = false := by
  simp [natLt]; omega
theorem f64Lt_law (x a b : F64) (ha : a ≠ .nan) : F64.lt a b = false → F64.lt x a = false → F64.lt x b = false := by
  cases x <;> cases a <;> cases b <;> simp_all [F64.lt]
  intro h1 h2; linarith
theorem f64Lt_law' (x a b : F64) (ha : a ≠ .nan) : F64.lt b a = false → F64.lt a x = false → F64.lt b x = false := by
  cases x <;> cases a <;> cases b <;> simp_all [F64.lt]
  intro h1 h2; linarith

/-! ## The scalar types -/

theorem integer_inherit_ok (E : Ext) {f g r : IntegerF} (h : f.inherit g = .ok r) (v : GoVal) :
    r.validate E v = .ok () ↔ f.validate E v = .ok () ∧ g.validate E v = .ok () := by
  cases hi : integerOf E v with
  | none => simp [IntegerF.validate, hi]
  | some i =>
    rw [(integer_decides E r v i hi).ok_iff, (integer_decides E f v i hi).ok_iff,
      (integer_decides E g v i hi).ok_iff]
    simp only [IntegerF.inherit] at h
    obtain ⟨lo, h1, h⟩ := Out.bind_ok.1 h
    obtain ⟨hi', h2, h⟩ := Out.bind_ok.1 h
    obtain ⟨en, h3, h⟩ := Out.bind_ok.1 h
    obtain ⟨fm, h4, h⟩ := Out.bind_ok.1 h
    simp at h; subst h
    simp only
    rw [between_inherit intLt _ intLt_false h1 h2 i (fun a b _ _ => intLt_law i a b)
      (fun a b _ _ => intLt_law' i a b), inheritEnum_ok h3]
    tauto

theorem number_inherit_ok (E : Ext) {f g r : NumberF} (hmin : f.minimum ≠ some .nan) (hmax : f.maximum ≠ some .nan)
    (h : f.inherit g = .ok r) (v : GoVal) :
    r.validate E v = .ok () ↔ f.validate E v = .ok () ∧ g.validate E v = .ok () := by
  rw [(number_decides E r v).ok_iff, (number_decides E f v).ok_iff, (number_decides E g v).ok_iff]
  simp only [NumberF.inherit] at h
  obtain ⟨lo, h1, h⟩ := Out.bind_ok.1 h
  obtain ⟨hi', h2, h⟩ := Out.bind_ok.1 h
  obtain ⟨en, h3, h⟩ := Out.bind_ok.1 h
  obtain ⟨fm, h4, h⟩ := Out.bind_ok.1 h
  simp at h; subst h
  have hb := fun x => between_inherit F64.lt _ f64Lt_false h1 h2 x
    (fun a b ha _ => f64Lt_law x a b (by rintro rfl; exact hmin ha))
    (fun a b ha _ => f64Lt_law' x a b (by rintro rfl; exact hmax ha))
  have he := fun x => inheritEnum_ok h3 x
  have hen : ∀ x, (∀ es, en = some es → x ≠ F64.nan ∧ GoVal.float x ∈ es) ↔
      (∀ es, f.enum = some es → x ≠ F64.nan ∧ GoVal.float x ∈ es) ∧
      (∀ es, g.enum = some es → x ≠ F64.nan ∧ GoVal.float x ∈ es) := by
    intro x
    have h5 := he (.float x)
    cases hf : f.enum <;> cases hg : g.enum <;> rw [hf, hg] at h3 h5 <;> simp [inheritEnum] at h3
    · subst h3; simp
    · subst h3; simp
    · subst h3; simp
    · obtain ⟨b, hb, h3⟩ := Out.bind_ok.1 h3
      cases b <;> simp at h3
      subst h3
      simp only [Option.some.injEq, forall_eq'] at h5 ⊢
      tauto
  unfold NumberOK
  constructor
  · rintro ⟨x, hx, hbt, hh⟩
    rw [hb x] at hbt
    rw [hen x] at hh
    exact ⟨⟨x, hx, hbt.1, hh.1⟩, ⟨x, hx, hbt.2, hh.2⟩⟩
  · rintro ⟨⟨x, hx, hbt, hh⟩, ⟨y, hy, hbt', hh'⟩⟩
    have : y = x := by cases hx <;> cases hy <;> rfl
    subst this
    exact ⟨y, hx, (hb y).2 ⟨hbt, hbt'⟩, (hen y).2 ⟨hh, hh'⟩⟩

/-- String inheritance is intersection, except that the parent's pattern counts only if the child has none. -/
theorem string_inherit_ok (E : Ext) {f g r : StringF} (h : f.inherit g = .ok r) (v : GoVal) :
    r.validate E v = .ok () ↔ f.validate E v = .ok () ∧
      ({ g with pattern := if f.pattern = none then g.pattern else none } : StringF).validate E v = .ok () := by
  rw [(string_decides E r v).ok_iff, (string_decides E f v).ok_iff, (string_decides E _ v).ok_iff]
  simp only [StringF.inherit] at h
  obtain ⟨lo, h1, h⟩ := Out.bind_ok.1 h
  obtain ⟨hi', h2, h⟩ := Out.bind_ok.1 h
  obtain ⟨en, h3, h⟩ := Out.bind_ok.1 h
  simp at h; subst h
  have hb := fun x => between_inherit natLt _ natLt_false h1 h2 x (fun a b _ _ => natLt_law x a b)
    (fun a b _ _ => natLt_law' x a b)
  have hp : ∀ s, (∀ p, (match f.pattern with | none => g.pattern | some p => some p) = some p → E.reMatch p s = true) ↔
      (∀ p, f.pattern = some p → E.reMatch p s = true) ∧
      (∀ p, (if f.pattern = none then g.pattern else none) = some p → E.reMatch p s = true) := by
    intro s
    cases f.pattern <;> simp
  unfold StringOK
  constructor
  · rintro ⟨s, hs, g1, g2, g3⟩
    rw [hb] at g1
    have g2 := (hp s).1 g2
    rw [inheritEnum_ok h3] at g3
    exact ⟨⟨s, hs, g1.1, g2.1, g3.1⟩, ⟨s, hs, g1.2, g2.2, g3.2⟩⟩
  · rintro ⟨⟨s, hs, g1, g2, g3⟩, ⟨s', hs', g1', g2', g3'⟩⟩
    have : s' = s := by rw [hs] at hs'; simpa using hs'.symm
    subst this
    refine ⟨s', hs, ?_, ?_, ?_⟩
    · exact (hb _).2 ⟨g1, g1'⟩
    · exact (hp s').2 ⟨g2, g2'⟩
    · exact (inheritEnum_ok h3 _).2 ⟨g3, g3'⟩

theorem file_inherit_ok {f g r : FileF} (h : f.inherit g = .ok r) (v : GoVal) :
    r.validate v = .ok () ↔ f.validate v = .ok () ∧ g.validate v = .ok () := by
  rw [(file_decides r v).ok_iff, (file_decides f v).ok_iff, (file_decides g v).ok_iff]
  simp only [FileF.inherit] at h
  obtain ⟨lo, h1, h⟩ := Out.bind_ok.1 h
  obtain ⟨hi', h2, h⟩ := Out.bind_ok.1 h
  obtain ⟨en, h3, h⟩ := Out.bind_ok.1 h
  simp at h; subst h
  have hb := fun x => between_inherit natLt _ natLt_false h1 h2 x (fun a b _ _ => natLt_law x a b)
    (fun a b _ _ => natLt_law' x a b)
  unfold FileOK
  constructor
  · rintro ⟨s, hs, g1⟩
    rw [hb] at g1
    exact ⟨⟨s, hs, g1.1⟩, ⟨s, hs, g1.2⟩⟩
  · rintro ⟨⟨s, hs, g1⟩, ⟨s', hs', g1'⟩⟩
    have : s' = s := by rw [hs] at hs'; simpa using hs'.symm
    subst this
    exact ⟨s', hs, (hb _).2 ⟨g1, g1'⟩⟩

theorem boolean_inherit_ok {f g r : Option (List GoVal)} (h : inheritEnum f g = .ok r) (v : GoVal) :
    booleanValidate r v = .ok () ↔ booleanValidate f v = .ok () ∧ booleanValidate g v = .ok () := by
  rw [(boolean_decides r v).ok_iff, (boolean_decides f v).ok_iff, (boolean_decides g v).ok_iff]
  unfold BooleanOK
  constructor
  · rintro ⟨s, hs, g1⟩
    rw [inheritEnum_ok h] at g1
    exact ⟨⟨s, hs, g1.1⟩, ⟨s, hs, g1.2⟩⟩
  · rintro ⟨⟨s, hs, g1⟩, ⟨s', hs', g1'⟩⟩
    have : s' = s := by rw [hs] at hs'; simpa using hs'.symm
    subst this
    exact ⟨s', hs, (inheritEnum_ok h _).2 ⟨g1, g1'⟩⟩

/-- With a declared format in the parent, or none in the child, the result is the parent's set of dates. -/
theorem datetime_inherit_ok {f g r : Option String} (h : inheritFormat f g = .ok r) (hg : g = none → f = none) :
    r = g := by
  cases f <;> cases g <;> simp [inheritFormat] at h hg
  · exact h.symm
  · exact h.symm
  · split at h <;> simp at h
    rename_i heq
    rw [← h, heq]

end GoRaml
