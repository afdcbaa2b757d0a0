import Verif.Model.Check
import Verif.Spec.Check
import Verif.Lemmas.Terminate

/-!
# Lemmas about the definition check (C22)
-/

namespace GoRaml

open Spec

theorem consistent_iff (E : Ext) (h : St) (a : Addr) :
    Consistent E h a ↔ ∃ s, h.shapeAt a = some s ∧ DefinitionOK E h s ∧ ∀ y, ShapeEdge h s y → Consistent E h y := by
  constructor
  · intro hc
    obtain ⟨s, hs, hd⟩ := hc a (.refl a)
    exact ⟨s, hs, hd, fun y hy z hz => hc z (.step hs hy hz)⟩
  · rintro ⟨s, hs, hd, hsub⟩ y hy
    cases hy with
    | refl => exact ⟨s, hs, hd⟩
    | @step _ x _ s' hs' he hr =>
      rw [hs] at hs'; cases hs'
      exact hsub x he y hr

theorem boundsCrossed_false {α : Type} (lt : α → α → Bool) (le : α → α → Prop) (hle : ∀ a b, lt b a = false ↔ le a b)
    (lo hi : Option α) : boundsCrossed lt lo hi = false ↔ NotCrossed le lo hi := by
  cases lo <;> cases hi <;> simp [boundsCrossed, NotCrossed, hle]

theorem enumKind_iff {p : GoVal → Bool} {P : GoVal → Prop} (hp : ∀ v, p v = true ↔ P v) (enum : Option (List GoVal)) :
    (match enum with | some es => !es.all p | none => false) = false ↔ EnumKind P enum := by
  cases enum <;> simp [EnumKind, hp]

theorem sound_bind {o : Out Unit} {f : Unit → Out Unit} {P Q : Prop} (ho : Sound o P) (hf : o = .ok () → Sound (f ()) Q) :
    Sound (o.bind f) (P ∧ Q) := by
  cases o with
  | ok u => have := hf rfl; have hp := ho.1 rfl; simpa [Out.bind, hp] using this
  | err m => exact sound_err fun h => ho.2 m rfl h.1
  | panic m => simp [Sound, Out.bind]
  | diverge => simp [Sound, Out.bind]

theorem isScalar_iff (s : Shape) : s.isScalar = true ↔ IsScalarType s := by
  cases s <;> simp [Shape.isScalar, IsScalarType]

theorem integer_check_sound (f : IntegerF) (E : Ext) (h : St) : Decides f.check (DefinitionOK E h (.integer f)) := by
  unfold IntegerF.check DefinitionOK
  refine decides_ite_err (boundsCrossed_false intLt _ intLt_false _ _) (decides_ite_err (enumKind_iff (fun v => ?_) _) ?_)
  · cases v <;> simp [isIntegerEnumValue]
  · cases hf : f.format with
    | none => simpa using decides_ok
    | some x =>
      have : (integerFormatClass x).isSome = true ↔ x ∈ integerFormats := by
        unfold integerFormatClass integerFormats
        split <;> simp_all
      by_cases hx : (integerFormatClass x).isSome = true
      · simp only [hx, if_true]
        exact Or.inl ⟨rfl, by simpa using this.1 hx⟩
      · simp only [hx]
        exact Or.inr ⟨⟨_, rfl⟩, by simpa using fun h => hx (this.2 h)⟩

theorem number_check_sound (f : NumberF) (E : Ext) (h : St) : Decides f.check (DefinitionOK E h (.number f)) := by
  unfold NumberF.check DefinitionOK
  have := decides_ite_err (b := boundsCrossed F64.lt f.minimum f.maximum) (m := "minimum must be less than or equal to maximum")
    (boundsCrossed_false F64.lt _ f64Lt_false _ _)
    (decides_ite_err (m := "enum value must be int, uint, float64") (enumKind_iff
      (P := fun v => (∃ z, v = .int z) ∨ (∃ n, v = .uint n) ∨ ∃ x, v = .float x) (p := isNumberEnumValue)
      (fun v => by cases v <;> simp [isNumberEnumValue]) f.enum) decides_ok)
  exact this.congr (by simp)

theorem string_check_sound (f : StringF) (E : Ext) (h : St) : Decides f.check (DefinitionOK E h (.string f)) := by
  unfold StringF.check DefinitionOK
  have := decides_ite_err (b := boundsCrossed natLt f.minLength f.maxLength)
    (m := "minLength must be less than or equal to maxLength") (boundsCrossed_false natLt _ natLt_false _ _)
    (decides_ite_err (m := "enum value must be string") (enumKind_iff (P := fun v => ∃ s, v = .str s) (p := isStr)
      (fun v => by cases v <;> simp [isStr]) f.enum) decides_ok)
  exact this.congr (by simp)

theorem file_check_sound (f : FileF) (E : Ext) (h : St) : Decides f.check (DefinitionOK E h (.file f)) := by
  unfold FileF.check DefinitionOK
  have := decides_ite_err (b := boundsCrossed natLt f.minLength f.maxLength)
    (m := "minLength must be less than or equal to maxLength") (boundsCrossed_false natLt _ natLt_false _ _)
    (decides_ite_err (m := "file type must be string") (enumKind_iff (P := fun v => ∃ s, v = .str s) (p := isStr)
      (fun v => by cases v <;> simp [isStr]) f.fileTypes) decides_ok)
  exact this.congr (by simp)

theorem boolean_check_sound (e : Option (List GoVal)) (E : Ext) (h : St) :
    Decides (booleanCheck e) (DefinitionOK E h (.boolean e)) := by
  unfold booleanCheck DefinitionOK
  have := decides_ite_err (m := "enum value must be boolean") (enumKind_iff (P := fun v => ∃ b, v = .bool b) (p := isBool)
      (fun v => by cases v <;> simp [isBool]) e) decides_ok
  exact this.congr (by simp)

/-- What the discriminator part of the object check decides. -/
def DiscriminatorOK (E : Ext) (h : St) (f : ObjectF) : Prop :=
  ∀ d, f.discriminator = some d → ∃ p s, Declares (h.props f.properties) d p ∧ h.shapeAt p.base = some s ∧
    IsScalarType s ∧ (f.discriminatorValue ≠ .nil → Valid E h p.base f.discriminatorValue)

theorem discriminator_sound (E : Ext) (h : St) (f : ObjectF) (hv : GoValue f.discriminatorValue) :
    Sound (checkDiscriminator E h f (h.props f.properties)) (DiscriminatorOK E h f) := by
  unfold checkDiscriminator DiscriminatorOK
  cases f.discriminator with
  | none => simp [Sound]
  | some d =>
    simp only [Option.some.injEq, forall_eq']
    cases hg : OMap.get (h.props f.properties) d with
    | none =>
      refine sound_err ?_
      rintro ⟨p, s, hd, _⟩
      rw [(OMap.get_some_iff _ _ _).2 hd] at hg; simp at hg
    | some p =>
      have hd := (OMap.get_some_iff _ _ _).1 hg
      have uniq : ∀ q, Declares (h.props f.properties) d q → q = p := by
        intro q hq
        have := (OMap.get_some_iff _ _ _).2 hq
        rw [hg] at this; simpa using this.symm
      simp only
      cases hs : h.shapeAt p.base with
      | none => simp [Sound]
      | some s =>
        simp only
        by_cases hsc : s.isScalar = true
        · have key : (∃ q t, Declares (h.props f.properties) d q ∧ h.shapeAt q.base = some t ∧ IsScalarType t ∧
              (f.discriminatorValue ≠ .nil → Valid E h q.base f.discriminatorValue)) ↔
              (f.discriminatorValue ≠ .nil → Valid E h p.base f.discriminatorValue) := by
            constructor
            · rintro ⟨q, t, h1, h2, h3, h4⟩; rw [uniq q h1] at h4; exact h4
            · intro h4; exact ⟨p, s, hd, hs, (isScalar_iff s).1 hsc, h4⟩
          simp only [hsc, Bool.not_true, Bool.false_eq_true, if_false]
          refine Sound.congr ?_ key.symm
          cases hdv : f.discriminatorValue <;> first
            | (simp [Sound]; done)
            | (simp only
               rw [hdv] at hv
               exact (validate_sound E h 1 p.base _ hv).congr (by simp))
        · simp only [hsc, Bool.not_false, if_true]
          refine sound_err ?_
          rintro ⟨q, t, h1, h2, h3, _⟩
          rw [uniq q h1, hs] at h2; cases h2
          exact hsc ((isScalar_iff s).2 h3)

theorem object_check_sound (E : Ext) (rec : Addr → Out Unit) (P : Addr → Prop) (h : St) (f : ObjectF)
    (hv : GoValue f.discriminatorValue) (hr : ∀ y, ShapeEdge h (.object f) y → Sound (rec y) (P y)) :
    Sound (objectCheck E rec h f) (DefinitionOK E h (.object f) ∧ ∀ y, ShapeEdge h (.object f) y → P y) := by
  have hpp : Sound (checkPatternProperties rec h f)
      ((f.additionalProperties = some false → f.patternProperties = none) ∧
        ∀ p ∈ h.patProps f.patternProperties, P p.2.base) := by
    unfold checkPatternProperties
    cases hf : f.patternProperties with
    | none => simp [Sound, St.patProps]
    | some i =>
      refine sound_ite_err (by simp) ?_
      exact forEach_sound _ (fun pp : String × PatternProperty => P pp.2.base) _ fun x hx => hr _ (.pattern (by rw [hf]; exact hx))
  have hps : Sound ((checkProperties E rec h f).bind fun _ =>
      if f.discriminator.isSome && f.properties.isNone then .err "discriminator without properties" else .ok ())
      ((∀ p ∈ h.props f.properties, P p.2.base) ∧ DiscriminatorOK E h f) := by
    unfold checkProperties
    cases hf : f.properties with
    | none =>
      simp only [Out.bind, Option.isNone_none, Bool.and_true]
      cases hd : f.discriminator with
      | none => simp [Sound, St.props, DiscriminatorOK, hd]
      | some d =>
        refine sound_err ?_
        rintro ⟨_, h2⟩
        obtain ⟨p, s, ⟨pre, post, h3, _⟩, _⟩ := h2 d hd
        simp [hf, St.props] at h3
    | some i =>
      have hfe := forEach_sound (fun p : String × Property => rec p.2.base) (fun p => P p.2.base) (h.props (some i))
        fun x hx => hr _ (.property (by rw [hf]; exact hx))
      have hds := discriminator_sound E h f hv
      rw [hf] at hds
      have := sound_bind (sound_bind (f := fun _ => checkDiscriminator E h f (h.props (some i))) hfe (fun _ => hds))
        (f := fun _ => if f.discriminator.isSome && (some i).isNone then .err "discriminator without properties" else .ok ())
        (Q := True) (fun _ => by simp [Sound])
      exact this.congr (by simp)
  unfold objectCheck
  have := sound_ite_err (b := boundsCrossed natLt f.minProperties f.maxProperties)
    (m := "minProperties must be less than or equal to maxProperties") (boundsCrossed_false natLt _ natLt_false _ _)
    (sound_bind (f := fun _ => (checkProperties E rec h f).bind fun _ =>
      if f.discriminator.isSome && f.properties.isNone then .err "discriminator without properties" else .ok ()) hpp
      (fun _ => hps))
  refine this.congr ?_
  simp only [DefinitionOK]
  constructor
  · rintro ⟨h1, ⟨h2, h3⟩, h4, h5⟩
    refine ⟨⟨h1, h2, h5⟩, fun y hy => ?_⟩
    cases hy with
    | property hp => exact h4 _ hp
    | pattern hp => exact h3 _ hp
  · rintro ⟨⟨h1, h2, h5⟩, h6⟩
    exact ⟨h1, ⟨h2, fun p hp => h6 _ (.pattern hp)⟩, fun p hp => h6 _ (.property hp), h5⟩

theorem checkShape_sound (E : Ext) (rec : Addr → Out Unit) (P : Addr → Prop) (h : St) (s : Shape)
    (hv : ∀ f, s = .object f → GoValue f.discriminatorValue) (hr : ∀ y, ShapeEdge h s y → Sound (rec y) (P y)) :
    Sound (checkShape E rec h s) (DefinitionOK E h s ∧ ∀ y, ShapeEdge h s y → P y) := by
  have leaf : ∀ {o : Out Unit}, Decides o (DefinitionOK E h s) → (∀ y, ¬ ShapeEdge h s y) →
      Sound o (DefinitionOK E h s ∧ ∀ y, ShapeEdge h s y → P y) := by
    intro o ho hn
    exact ho.sound.congr ⟨fun hd => ⟨hd, fun y hy => absurd hy (hn y)⟩, And.left⟩
  cases s with
  | integer f => exact leaf (integer_check_sound f E h) (fun y hy => by cases hy)
  | number f => exact leaf (number_check_sound f E h) (fun y hy => by cases hy)
  | string f => exact leaf (string_check_sound f E h) (fun y hy => by cases hy)
  | file f => exact leaf (file_check_sound f E h) (fun y hy => by cases hy)
  | boolean e => exact leaf (boolean_check_sound e E h) (fun y hy => by cases hy)
  | object f => exact object_check_sound E rec P h f (hv f rfl) hr
  | array f =>
    simp only [checkShape, arrayCheck, DefinitionOK]
    refine sound_ite_err (boundsCrossed_false natLt _ natLt_false _ _) ?_
    cases hi : f.items with
    | none =>
      refine ⟨fun _ y hy => ?_, by simp⟩
      cases hy with | items h1 => rw [hi] at h1; simp at h1
    | some i =>
      refine (hr i (.items hi)).congr ⟨fun hp y hy => ?_, fun hp => hp i (.items hi)⟩
      cases hy with | items h1 => rw [hi] at h1; cases h1; exact hp
  | union l e =>
    simp only [checkShape, DefinitionOK, true_and]
    refine (forEach_sound rec P (h.slice l) fun x hx => hr x (.member hx)).congr ⟨fun hp y hy => ?_, fun hp x hx => hp x (.member hx)⟩
    cases hy with | member hm => exact hp _ hm
  | unknown f => exact sound_err fun hd => hd.1
  | _ => exact leaf decides_ok (fun y hy => by cases hy)

theorem check_sound (E : Ext) {h : St} (hv : RuntimeDiscriminators h) (n : Nat) (a : Addr) :
    Sound (check E h n a) (Consistent E h a) := by
  induction n generalizing a with
  | zero => simp [check, Sound]
  | succ n ih =>
    simp only [check]
    cases hs : h.shapeAt a with
    | none => simp [Sound]
    | some s =>
      refine (checkShape_sound E (check E h n) (Consistent E h) h s (fun f hf => hv a f (by rw [hs, hf])) fun y _ => ih y).congr ?_
      rw [consistent_iff, hs]
      simp

theorem bind_bad {o : Out Unit} {f : Unit → Out Unit} (hb : (o.bind f).Bad) : o.Bad ∨ (f ()).Bad := by
  cases o with
  | ok u => exact Or.inr hb
  | err m => nomatch hb
  | panic m => exact Or.inl .panic
  | diverge => exact Or.inl .diverge

theorem scalar_validate_not_bad (E : Ext) {h : St} {a : Addr} {s : Shape} (hs : h.shapeAt a = some s)
    (hsc : s.isScalar = true) (v : GoVal) : ¬ (validate E h 1 a v).Bad := by
  intro hb
  simp only [validate, hs] at hb
  obtain ⟨b, x, h1, _⟩ := validateShape_bad E _ h s v hb
  cases h1 <;> simp [Shape.isScalar] at hsc

theorem checkShape_bad (E : Ext) (rec : Addr → Out Unit) {h : St} (hc : Closed h) {a : Addr} (s : Shape)
    (hs : h.shapeAt a = some s) (hb : (checkShape E rec h s).Bad) : ∃ y, ShapeEdge h s y ∧ (rec y).Bad := by
  have nb : ∀ {o : Out Unit} {P : Prop}, Decides o P → o.Bad → False := fun hd hb => hd.not_bad hb
  cases s with
  | integer f => exact (nb (integer_check_sound f E h) hb).elim
  | number f => exact (nb (number_check_sound f E h) hb).elim
  | string f => exact (nb (string_check_sound f E h) hb).elim
  | file f => exact (nb (file_check_sound f E h) hb).elim
  | boolean e => exact (nb (boolean_check_sound e E h) hb).elim
  | array f =>
    simp only [checkShape, arrayCheck] at hb
    split_ifs at hb
    · exact absurd hb err_not_bad
    · cases hi : f.items with
      | none => rw [hi] at hb; nomatch hb
      | some i => rw [hi] at hb; exact ⟨i, .items hi, hb⟩
  | object f =>
    simp only [checkShape, objectCheck] at hb
    by_cases h1 : boundsCrossed natLt f.minProperties f.maxProperties = true
    · rw [if_pos h1] at hb; exact absurd hb err_not_bad
    · rw [if_neg h1] at hb
      rcases bind_bad hb with hb | hb
      · unfold checkPatternProperties at hb
        cases hf : f.patternProperties with
        | none => rw [hf] at hb; nomatch hb
        | some i =>
          rw [hf] at hb
          simp only at hb
          split_ifs at hb
          · exact absurd hb err_not_bad
          · obtain ⟨x, hx, hx', _⟩ := forEach_bad _ _ hb
            exact ⟨_, .pattern (by rw [hf]; exact hx), hx'⟩
      · rcases bind_bad hb with hb | hb
        · unfold checkProperties at hb
          cases hf : f.properties with
          | none => rw [hf] at hb; nomatch hb
          | some i =>
            rw [hf] at hb
            simp only at hb
            rcases bind_bad hb with hb | hb
            · obtain ⟨x, hx, hx', _⟩ := forEach_bad _ _ hb
              exact ⟨_, .property (by rw [hf]; exact hx), hx'⟩
            · unfold checkDiscriminator at hb
              cases hd : f.discriminator with
              | none => rw [hd] at hb; nomatch hb
              | some d =>
                rw [hd] at hb
                simp only at hb
                cases hg : OMap.get (h.props (some i)) d with
                | none => rw [hg] at hb; nomatch hb
                | some p =>
                  rw [hg] at hb
                  simp only at hb
                  obtain ⟨pre, post, hps, _⟩ := (OMap.get_some_iff _ _ _).1 hg
                  have hmem : (d, p) ∈ h.props f.properties := by rw [hf, hps]; simp
                  have hlt : p.base < h.bases.length := by
                    obtain ⟨b, hb1, hb2⟩ : ∃ b, h.base a = some b ∧ b.shape = some (.object f) := by
                      simpa [St.shapeAt, Option.bind_eq_some_iff] using hs
                    obtain ⟨s', h5, h6⟩ := hc a b hb1
                    rw [hb2] at h5; cases h5
                    exact h6.1 _ hmem
                  obtain ⟨s', hs'⟩ := hc.shape hlt
                  rw [hs'] at hb
                  simp only at hb
                  by_cases hsc : s'.isScalar = true
                  · simp only [hsc, Bool.not_true, Bool.false_eq_true, if_false] at hb
                    split at hb
                    · nomatch hb
                    · exact absurd hb (scalar_validate_not_bad E hs' hsc _)
                  · simp only [hsc] at hb; nomatch hb
        · split_ifs at hb
          · exact absurd hb err_not_bad
          · nomatch hb
  | union l e =>
    obtain ⟨x, hx, hx', _⟩ := forEach_bad _ _ hb
    exact ⟨x, .member hx, hx'⟩
  | unknown f => nomatch hb
  | _ => nomatch hb

theorem Spec.Closed.edge {h : St} (hc : Closed h) {a y : Addr} {s : Shape} (hs : h.shapeAt a = some s)
    (he : ShapeEdge h s y) : y < h.bases.length := by
  obtain ⟨b, hb1, hb2⟩ : ∃ b, h.base a = some b ∧ b.shape = some s := by
    simpa [St.shapeAt, Option.bind_eq_some_iff] using hs
  obtain ⟨s', h5, h6⟩ := hc a b hb1
  rw [hb2] at h5; cases h5
  cases he with
  | items h1 => exact h6 _ h1
  | property h1 => exact h6.1 _ h1
  | pattern h1 => exact h6.2 _ h1
  | member h1 => exact h6 _ h1

/-- Without infinite paths, induction along references is possible. -/
theorem acc_of_noInfinitePath {h : St} {a : Addr} (hn : NoInfinitePath h a) : Acc (fun y x => Refers h x y) a := by
  by_contra hna
  have hstep : ∀ x : { x // ¬ Acc (fun y x => Refers h x y) x }, ∃ y : { x // ¬ Acc (fun y x => Refers h x y) x },
      Refers h x.1 y.1 := by
    rintro ⟨x, hx⟩
    by_contra hcon
    refine hx (Acc.intro x fun y hy => ?_)
    by_contra hy'
    exact hcon ⟨⟨y, hy'⟩, hy⟩
  choose g hg using hstep
  let f : Nat → { x // ¬ Acc (fun y x => Refers h x y) x } := fun n => n.rec ⟨a, hna⟩ fun _ x => g x
  obtain ⟨n, hcon⟩ := hn (fun n => (f n).1) rfl
  exact hcon (hg (f n))

/-- A type refers to finitely many types. -/
theorem refers_finite (h : St) (a : Addr) : ∃ l : List Addr, ∀ y, Refers h a y → y ∈ l := by
  cases hs : h.shapeAt a with
  | none => exact ⟨[], by rintro y ⟨s, h1, _⟩; rw [hs] at h1; cases h1⟩
  | some s =>
    have red : ∀ y, Refers h a y → ShapeEdge h s y := by
      rintro y ⟨s', h1, h2⟩; rw [hs] at h1; cases h1; exact h2
    cases s with
    | array f => exact ⟨f.items.toList, fun y hy => by cases red y hy with | items h1 => simp [h1]⟩
    | object f =>
      refine ⟨(h.props f.properties).map (·.2.base) ++ (h.patProps f.patternProperties).map (·.2.base), fun y hy => ?_⟩
      cases red y hy with
      | property h1 => exact List.mem_append_left _ (List.mem_map.2 ⟨_, h1, rfl⟩)
      | pattern h1 => exact List.mem_append_right _ (List.mem_map.2 ⟨_, h1, rfl⟩)
    | union l e => exact ⟨h.slice l, fun y hy => by cases red y hy with | member h1 => exact h1⟩
    | _ => exact ⟨[], fun y hy => by cases red y hy⟩

theorem common_bound {P : Addr → Nat → Prop} : ∀ (l : List Addr), (∀ y ∈ l, ∃ n, ∀ m, n ≤ m → P y m) →
    ∃ n, ∀ y ∈ l, ∀ m, n ≤ m → P y m
  | [], _ => ⟨0, by simp⟩
  | x :: l, hl => by
    obtain ⟨n1, h1⟩ := hl x List.mem_cons_self
    obtain ⟨n2, h2⟩ := common_bound l fun y hy => hl y (List.mem_cons_of_mem _ hy)
    refine ⟨max n1 n2, fun y hy m hm => ?_⟩
    rcases List.mem_cons.1 hy with rfl | hy
    · exact h1 m (by omega)
    · exact h2 y hy m (by omega)

theorem check_not_bad (E : Ext) {h : St} (hc : Closed h) {a : Addr} (hacc : Acc (fun y x => Refers h x y) a) :
    a < h.bases.length → ∃ n, ∀ m, n ≤ m → ¬ (check E h m a).Bad := by
  induction hacc with
  | intro a _ ih =>
    intro ha
    obtain ⟨s, hs⟩ := hc.shape ha
    obtain ⟨l, hl⟩ := refers_finite h a
    obtain ⟨n, hn⟩ := common_bound (P := fun y m => Refers h a y → ¬ (check E h m y).Bad) l (by
      intro y _
      by_cases hy : Refers h a y
      · obtain ⟨s', h1, h2⟩ := hy
        obtain ⟨n, hn⟩ := ih y ⟨s', h1, h2⟩ (hc.edge h1 h2)
        exact ⟨n, fun m hm _ => hn m hm⟩
      · exact ⟨0, fun _ _ h => absurd h hy⟩)
    refine ⟨n + 1, fun m hm hb => ?_⟩
    obtain ⟨m, rfl⟩ : ∃ k, m = k + 1 := ⟨m - 1, by omega⟩
    simp only [check, hs] at hb
    obtain ⟨y, hy, hyb⟩ := checkShape_bad E _ hc s hs hb
    exact hn y (hl y ⟨s, hs, hy⟩) m (by omega) ⟨s, hs, hy⟩ hyb

theorem check_decides (E : Ext) {h : St} (hc : Closed h) {a : Addr} (hac : NoInfinitePath h a)
    (hv : RuntimeDiscriminators h) (ha : a < h.bases.length) :
    ∃ n, ∀ m, n ≤ m → Decides (check E h m a) (Consistent E h a) := by
  obtain ⟨n, hn⟩ := check_not_bad E hc (acc_of_noInfinitePath hac) ha
  refine ⟨n, fun m hm => ?_⟩
  have hs := check_sound E hv m a
  have hb := hn m hm
  cases ho : check E h m a with
  | ok u => exact Or.inl ⟨rfl, hs.1 ho⟩
  | err e => exact Or.inr ⟨⟨e, rfl⟩, hs.2 e ho⟩
  | panic e => rw [ho] at hb; exact absurd .panic hb
  | diverge => rw [ho] at hb; exact absurd .diverge hb

end GoRaml
