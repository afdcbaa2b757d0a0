import Mathlib.Data.String.Basic
import Mathlib.Data.Rat.Floor
import Mathlib.Tactic.Linarith
import Verif.Lemmas.SchemaRefs

/-!
# Types and their schemas accept the same values
-/

namespace GoRaml

open Spec

theorem ascii_size {s : String} (hs : ∀ c ∈ s.toList, c.val < 128) : s.toUTF8.size = s.length := by
  have key : ∀ l : List Char, (∀ c ∈ l, c.val < 128) → String.utf8Len l = l.length := by
    intro l
    induction l with
    | nil => intro _; rfl
    | cons c l ih =>
      intro hl
      have hc : c.utf8Size = 1 := Char.utf8Size_eq_one_iff.2 (by
        have := hl c (by simp)
        rw [UInt32.lt_iff_toNat_lt] at this
        rw [UInt32.le_iff_toNat_le]
        exact Nat.lt_succ_iff.1 this)
      rw [String.utf8Len, ih fun d hd => hl d (by simp [hd]), hc, List.length_cons]
  show s.utf8ByteSize = s.length
  rw [← String.length_toList, ← key _ hs, ← String.utf8ByteSize_ofList, String.ofList_toList]

theorem hasType_inv {t : String} {v : GoVal} (ht : HasType t v) :
    (t = "null" → v = .nil) ∧ (t = "boolean" → ∃ b, v = .bool b) ∧ (t = "integer" → ∃ z : Int, JsonNumber v z) ∧
    (t = "string" → ∃ s, v = .str s) ∧ (t = "array" → ∃ l, v = .arr l) ∧ (t = "object" → ∃ m, v = .map m) ∧
    (t = "number" → ∃ q, JsonNumber v q) := by
  cases ht <;> refine ⟨?_, ?_, ?_, ?_, ?_, ?_, ?_⟩ <;> intro e <;>
    first | exact ⟨_, by assumption⟩ | exact ⟨_, rfl⟩ | rfl | exact absurd e (by decide)

theorem JsonNumber.unique {v : GoVal} {p q : Rat} (hp : JsonNumber v p) (hq : JsonNumber v q) : p = q := by
  cases hp <;> cases hq <;> rfl

/-- What JSON equality says of scalars. -/
theorem jsonSame_inv {v w : GoVal} (hs : JsonSame v w) :
    v = w ∨ (∃ q, JsonNumber v q ∧ JsonNumber w q) ∨ (∃ l l', v = .arr l ∧ w = .arr l') ∨ ∃ m m', v = .map m ∧ w = .map m' := by
  induction hs with
  | refl v => exact Or.inl rfl
  | number h1 h2 => exact Or.inr (Or.inl ⟨_, h1, h2⟩)
  | perm _ => exact Or.inr (Or.inr (Or.inr ⟨_, _, rfl, rfl⟩))
  | inArr _ _ _ _ => exact Or.inr (Or.inr (Or.inl ⟨_, _, rfl, rfl⟩))
  | inMap _ _ _ _ _ => exact Or.inr (Or.inr (Or.inr ⟨_, _, rfl, rfl⟩))
  | trans _ _ ih1 ih2 =>
    rcases ih1 with rfl | ⟨q, h1, h2⟩ | ⟨l, l', rfl, rfl⟩ | ⟨m, m', rfl, rfl⟩
    · exact ih2
    · rcases ih2 with rfl | ⟨q', h3, h4⟩ | ⟨l, l', rfl, rfl⟩ | ⟨m, m', rfl, rfl⟩
      · exact Or.inr (Or.inl ⟨q, h1, h2⟩)
      · rw [← JsonNumber.unique h2 h3] at h4
        exact Or.inr (Or.inl ⟨q, h1, h4⟩)
      · cases h2
      · cases h2
    · rcases ih2 with rfl | ⟨q', h3, h4⟩ | ⟨l, l', h3, rfl⟩ | ⟨m, m', h3, rfl⟩
      · exact Or.inr (Or.inr (Or.inl ⟨_, _, rfl, rfl⟩))
      · cases h3
      · exact Or.inr (Or.inr (Or.inl ⟨_, _, rfl, rfl⟩))
      · cases h3
    · rcases ih2 with rfl | ⟨q', h3, h4⟩ | ⟨l, l', h3, rfl⟩ | ⟨m, m', h3, rfl⟩
      · exact Or.inr (Or.inr (Or.inr ⟨_, _, rfl, rfl⟩))
      · cases h3
      · cases h3
      · exact Or.inr (Or.inr (Or.inr ⟨_, _, rfl, rfl⟩))

theorem jsonSame_bool {c : Bool} {e : GoVal} (hs : JsonSame (.bool c) e) : e = .bool c := by
  rcases jsonSame_inv hs with rfl | ⟨q, h1, -⟩ | ⟨l, l', h1, -⟩ | ⟨l, l', h1, -⟩
  · rfl
  all_goals cases h1

theorem jsonSame_str {c : String} {e : GoVal} (hs : JsonSame (.str c) e) : e = .str c := by
  rcases jsonSame_inv hs with rfl | ⟨q, h1, -⟩ | ⟨l, l', h1, -⟩ | ⟨l, l', h1, -⟩
  · rfl
  all_goals cases h1

theorem jsonSame_number {v e : GoVal} {q : Rat} (hv : JsonNumber v q) (hs : JsonSame v e) : JsonNumber e q := by
  rcases jsonSame_inv hs with rfl | ⟨q', h1, h2⟩ | ⟨l, l', rfl, -⟩ | ⟨l, l', rfl, -⟩
  · exact hv
  · rw [JsonNumber.unique hv h1]; exact h2
  all_goals cases hv

/-- A value with an integer type involved that is a whole number is the integer RAML validation sees. -/
theorem integerValue_of_common {E : Ext} {T : Shape → Prop} {g : IntegerF} (hT : T (.integer g)) {v : GoVal} (hv : Common E T v) :
    (∃ z : Int, JsonNumber v z ∧ IntegerValue v z ∧ InRange v) ∨ ∀ z, ¬ IntegerValue v z ∧ ∀ q, ¬ JsonNumber v q := by
  cases hv with
  | int z h1 h2 _ => exact Or.inl ⟨z, .int z, .int z, h1, h2⟩
  | uint n h1 _ => exact Or.inl ⟨n, by exact_mod_cast JsonNumber.uint n, .uint n, h1⟩
  | float q hq =>
    obtain ⟨z, rfl, h1, h2⟩ := hq g hT
    refine Or.inl ⟨z, .float _, ?_, ?_, ?_⟩
    · by_cases h0 : (0 : Rat) ≤ z
      · have := IntegerValue.floatPos (z : Rat) h0
        rwa [Rat.floor_intCast] at this
      · have := IntegerValue.floatNeg (z : Rat) (not_le.1 h0)
        rwa [Rat.ceil_intCast] at this
    · have : ((-(2 ^ 63) : Int) : Rat) ≤ z := by exact_mod_cast h1
      push_cast at this
      linarith
    · exact_mod_cast h2
  | nil => exact Or.inr fun z => ⟨by rintro ⟨⟩, by rintro q ⟨⟩⟩
  | bool _ => exact Or.inr fun z => ⟨by rintro ⟨⟩, by rintro q ⟨⟩⟩
  | str _ _ => exact Or.inr fun z => ⟨by rintro ⟨⟩, by rintro q ⟨⟩⟩
  | arr _ _ => exact Or.inr fun z => ⟨by rintro ⟨⟩, by rintro q ⟨⟩⟩
  | map _ _ _ => exact Or.inr fun z => ⟨by rintro ⟨⟩, by rintro q ⟨⟩⟩

theorem IntegerValue.unique {v : GoVal} {i j : Int} (hi : IntegerValue v i) (hj : IntegerValue v j) : i = j := by
  cases hi <;> cases hj <;> first | rfl | (exfalso; linarith)

theorem numberValue_of_common {E : Ext} {T : Shape → Prop} {g : NumberF} (hT : T (.number g)) {v : GoVal} (hv : Common E T v) :
    (∃ q : Rat, JsonNumber v q ∧ NumberValue E.toF64 v (.fin q)) ∨ ∀ x, ¬ NumberValue E.toF64 v x ∧ ∀ q, ¬ JsonNumber v q := by
  cases hv with
  | int z h1 h2 h3 => exact Or.inl ⟨z, .int z, by rw [← h3 g hT]; exact .int z⟩
  | uint n h1 h3 => exact Or.inl ⟨n, .uint n, by rw [← h3 g hT]; exact .uint n⟩
  | float q _ => exact Or.inl ⟨q, .float q, .float _⟩
  | nil => exact Or.inr fun z => ⟨by rintro ⟨⟩, by rintro q ⟨⟩⟩
  | bool _ => exact Or.inr fun z => ⟨by rintro ⟨⟩, by rintro q ⟨⟩⟩
  | str _ _ => exact Or.inr fun z => ⟨by rintro ⟨⟩, by rintro q ⟨⟩⟩
  | arr _ _ => exact Or.inr fun z => ⟨by rintro ⟨⟩, by rintro q ⟨⟩⟩
  | map _ _ _ => exact Or.inr fun z => ⟨by rintro ⟨⟩, by rintro q ⟨⟩⟩

theorem NumberValue.unique {conv : Int → F64} {v : GoVal} {i j : F64} (hi : NumberValue conv v i) (hj : NumberValue conv v j) : i = j := by
  cases hi <;> cases hj <;> rfl

section
variable {w : Wrap} {h : St} {P : Option JS → Addr → Prop} {b : Base} {x : JS} {E : Ext} {B : JS → GoVal → Prop} {T : Shape → Prop}

theorem asserts_any (hx : NodeOf w h P b x) (v : GoVal) : Asserts E B x v := by
  obtain ⟨x0, -, -, x3, -, -, -, -, -, x9, -, x11, x12, -⟩ := hx.sub
  refine ⟨?_, ?_, ?_, ?_, ?_, ?_, ?_, ?_, ?_, ?_, ?_, ?_, ?_, ?_, ?_, ?_, ?_, ?_, ?_⟩ <;> simp [x0, x3, x9, x11, x12, baseCore]

theorem asserts_nil (hx : NodeOf w h P b x) (v : GoVal) : Asserts E B { x with core := { x.core with type := "null" } } v ↔ v = .nil := by
  obtain ⟨x0, -, -, x3, -, -, -, -, -, x9, -, x11, x12, -⟩ := hx.sub
  constructor
  · intro ha; exact (hasType_inv (ha.type (by simp))).1 rfl
  · rintro rfl
    refine ⟨fun _ => .null, ?_, ?_, ?_, ?_, ?_, ?_, ?_, ?_, ?_, ?_, ?_, ?_, ?_, ?_, ?_, ?_, ?_, ?_⟩ <;> simp [x0, x3, x9, x11, x12, baseCore]

/-- A schema that only says it is a string. -/
theorem asserts_format (hx : NodeOf w h P b x) (fmt : String) (t : String) :
    Asserts E B { x with core := { x.core with type := "string", format := fmt } } (.str t) := by
  obtain ⟨x0, -, -, x3, -, -, -, -, -, x9, -, x11, x12, -⟩ := hx.sub
  refine ⟨fun _ => .string t, ?_, ?_, ?_, ?_, ?_, ?_, ?_, ?_, ?_, ?_, ?_, ?_, ?_, ?_, ?_, ?_, ?_, ?_⟩ <;> simp [x0, x3, x9, x11, x12, baseCore]

theorem asserts_datetime (hx : NodeOf w h P b x) {f : Option String} (hf : f ≠ some "rfc2616") (t : String) :
    Asserts E B (datetimeSchema x f) (.str t) := by
  have e : ∃ fmt, datetimeSchema x f = { x with core := { x.core with type := "string", format := fmt } } := by
    unfold datetimeSchema
    split
    · exact ⟨_, rfl⟩
    · exact ⟨_, rfl⟩
    · exact absurd rfl hf
    · exact ⟨x.core.format, rfl⟩
  obtain ⟨fmt, e⟩ := e
  rw [e]
  exact asserts_format hx fmt t

theorem boolean_of_asserts {e : Option (List GoVal)} (he : ∀ l, e = some l → l ≠ []) {v : GoVal}
    (ha : Asserts E B (booleanSchema x e) v) : BooleanOK e v := by
  obtain ⟨c, rfl⟩ := (hasType_inv (ha.type (by simp [booleanSchema]))).2.1 rfl
  refine ⟨c, rfl, fun es hes => ?_⟩
  obtain ⟨d, h1, h2⟩ := ha.enum (by simp [booleanSchema, hes, he es hes])
  rw [← jsonSame_bool h2]
  simpa [booleanSchema, hes] using h1

theorem asserts_of_boolean (hx : NodeOf w h P b x) {e : Option (List GoVal)} {v : GoVal} (hok : BooleanOK e v) :
    Asserts E B (booleanSchema x e) v := by
  obtain ⟨x0, -, -, x3, -, -, -, -, -, x9, -, x11, x12, -⟩ := hx.sub
  obtain ⟨c, rfl, hc⟩ := hok
  refine ⟨fun _ => .boolean c, ?_, ?_, ?_, ?_, ?_, ?_, ?_, ?_, ?_, ?_, ?_, ?_, ?_, ?_, ?_, ?_, ?_, ?_⟩
  · cases e with
    | none => simp [booleanSchema]
    | some l => intro _; exact ⟨_, by simpa [booleanSchema] using hc l rfl, .refl _⟩
  all_goals simp [booleanSchema, x0, x3, x9, x11, x12, baseCore]

theorem string_of_asserts {f : StringF} (hp : f.pattern ≠ some "") (he : ∀ l, f.enum = some l → l ≠ []) {v : GoVal}
    (hv : Common E T v) (ha : Asserts E B (stringSchema x f) v) : StringOK E.reMatch f v := by
  obtain ⟨t, rfl⟩ := (hasType_inv (ha.type (by simp [stringSchema]))).2.2.2.1 rfl
  have hsz : t.toUTF8.size = t.length := by cases hv with | str _ hs => exact ascii_size hs
  refine ⟨t, rfl, ⟨fun m hm => ?_, fun m hm => ?_⟩, fun p hpp => ?_, fun es hes => ?_⟩
  · rw [hsz]; exact ha.minLength m t hm rfl
  · rw [hsz]; exact ha.maxLength m t hm rfl
  · have : (stringSchema x f).core.pattern = p := by simp [stringSchema, hpp]
    rw [← this]
    refine ha.pattern t ?_ rfl
    rw [this]; rintro rfl; exact hp hpp
  · obtain ⟨d, h1, h2⟩ := ha.enum (by simp [stringSchema, hes, he es hes])
    rw [← jsonSame_str h2]
    simpa [stringSchema, hes] using h1

theorem asserts_of_string (hx : NodeOf w h P b x) {f : StringF} {v : GoVal} (hv : Common E T v) (hok : StringOK E.reMatch f v) :
    Asserts E B (stringSchema x f) v := by
  obtain ⟨x0, -, -, x3, -, -, -, -, -, x9, -, x11, x12, -⟩ := hx.sub
  obtain ⟨t, rfl, ⟨h1, h2⟩, h3, h4⟩ := hok
  have hsz : t.toUTF8.size = t.length := by cases hv with | str _ hs => exact ascii_size hs
  rw [hsz] at h1 h2
  refine ⟨fun _ => .string t, ?_, ?_, ?_, ?_, ?_, ?_, ?_, ?_, ?_, ?_, ?_, ?_, ?_, ?_, ?_, ?_, ?_, ?_⟩
  · cases hfe : f.enum with
    | none => simp [stringSchema, hfe]
    | some l => intro _; exact ⟨_, by simpa [stringSchema, hfe] using h4 l hfe, .refl _⟩
  · simp [stringSchema, x0, baseCore]
  · simp [stringSchema, x0, baseCore]
  · rintro m _ hm ⟨⟩; exact h1 m hm
  · rintro m _ hm ⟨⟩; exact h2 m hm
  · rintro _ hne ⟨⟩
    cases hfp : f.pattern with
    | none => simp [stringSchema, hfp] at hne
    | some p => simpa [stringSchema, hfp] using h3 p hfp
  all_goals simp [stringSchema, x0, x3, x9, x11, x12, baseCore]

/-- The keywords of a file type that assert something. -/
theorem fileSchema_core {f : FileF} {y : JS} (hy : fileSchema x f = .ok y) : ∃ mt, y = { x with core := { x.core with
    type := "string", minLength := f.minLength, maxLength := f.maxLength, contentEncoding := "base64", contentMediaType := mt } } := by
  unfold fileSchema at hy
  dsimp only at hy
  split at hy
  · cases hy; exact ⟨x.core.contentMediaType, rfl⟩
  · cases hy
  · cases hy; exact ⟨_, rfl⟩
  · cases hy

theorem asserts_file (hx : NodeOf w h P b x) {f : FileF} {y : JS} (hy : fileSchema x f = .ok y) {v : GoVal} (hv : Common E T v) :
    Asserts E B y v ↔ FileOK f v := by
  obtain ⟨x0, -, -, x3, -, -, -, -, -, x9, -, x11, x12, -⟩ := hx.sub
  obtain ⟨mt, rfl⟩ := fileSchema_core hy
  constructor
  · intro ha
    obtain ⟨t, rfl⟩ := (hasType_inv (ha.type (by simp))).2.2.2.1 rfl
    have hsz : t.toUTF8.size = t.length := by cases hv with | str _ hs => exact ascii_size hs
    refine ⟨t, rfl, fun m hm => ?_, fun m hm => ?_⟩
    · rw [hsz]; exact ha.minLength m t hm rfl
    · rw [hsz]; exact ha.maxLength m t hm rfl
  · rintro ⟨t, rfl, h1, h2⟩
    have hsz : t.toUTF8.size = t.length := by cases hv with | str _ hs => exact ascii_size hs
    rw [hsz] at h1 h2
    refine ⟨fun _ => .string t, ?_, ?_, ?_, ?_, ?_, ?_, ?_, ?_, ?_, ?_, ?_, ?_, ?_, ?_, ?_, ?_, ?_, ?_⟩
    · simp [x0, baseCore]
    · simp [x0, baseCore]
    · simp [x0, baseCore]
    · rintro m _ hm ⟨⟩; exact h1 m hm
    · rintro m _ hm ⟨⟩; exact h2 m hm
    all_goals simp [x0, x3, x9, x11, x12, baseCore]

theorem integer_of_asserts {f : IntegerF} (he : ∀ l, f.enum = some l → l ≠ [] ∧ ∀ e ∈ l, WholeElement e)
    (hT : T (.integer f)) {v : GoVal} (hv : Common E T v) (ha : Asserts E B (integerSchema x f) v) : InRange v ∧ IntegerOK f v := by
  obtain ⟨z', hz'⟩ := (hasType_inv (ha.type (by simp [integerSchema]))).2.2.1 rfl
  rcases integerValue_of_common hT hv with ⟨z, h1, h2, h3⟩ | hno
  · refine ⟨h3, z, h2, ⟨fun m hm => ?_, fun m hm => ?_⟩, fun es hes => ?_⟩
    · exact_mod_cast ha.minimum (.int m) m z (by simp [integerSchema, hm]) (.int m) h1
    · exact_mod_cast ha.maximum (.int m) m z (by simp [integerSchema, hm]) (.int m) h1
    · obtain ⟨hne, hel⟩ := he es hes
      obtain ⟨d, hd, hs⟩ := ha.enum (by simp [integerSchema, hes, hne])
      replace hd : d ∈ es := by simpa [integerSchema, hes] using hd
      have hn := jsonSame_number h1 hs
      rcases hel d hd with ⟨y, hy, rfl⟩ | ⟨n, hn', rfl⟩
      · have e : y = z := by exact_mod_cast JsonNumber.unique (.int y) hn
        subst e
        rw [if_pos hy]; exact hd
      · have e : (n : Int) = z := by exact_mod_cast JsonNumber.unique (.uint n) hn
        subst e
        rw [if_neg (by omega)]; exact hd
  · exact absurd hz' ((hno 0).2 _)

theorem asserts_of_integer (hx : NodeOf w h P b x) {f : IntegerF} (hmul : f.multipleOf = none) (hT : T (.integer f)) {v : GoVal}
    (hv : Common E T v)
    (hok : (InRange v ∧ IntegerOK f v) ∨ (¬ InRange v ∧ ∃ x, v = .float x ∧ IntegerOK f (.int (E.truncOverflow x).toInt))) :
    Asserts E B (integerSchema x f) v := by
  obtain ⟨x0, -, -, x3, -, -, -, -, -, x9, -, x11, x12, -⟩ := hx.sub
  have key : ∃ z : Int, JsonNumber v z ∧ IntegerValue v z ∧ InRange v := by
    rcases integerValue_of_common hT hv with hz | hno
    · exact hz
    · rcases hok with ⟨-, i, hi, -⟩ | ⟨-, y, rfl, -⟩
      · exact absurd hi (hno i).1
      · cases hv with
        | float q _ => exact absurd (.float q) ((hno 0).2 q)
  obtain ⟨z, hz, hiz, hr⟩ := key
  obtain ⟨-, i, hi, ⟨h1, h2⟩, h3⟩ : InRange v ∧ IntegerOK f v := hok.resolve_right fun hc => hc.1 hr
  have := IntegerValue.unique hi hiz
  subst this
  refine ⟨fun _ => .integer i hz, ?_, ?_, ?_, ?_, ?_, ?_, ?_, ?_, ?_, ?_, ?_, ?_, ?_, ?_, ?_, ?_, ?_, ?_⟩
  · cases hfe : f.enum with
    | none => simp [integerSchema, hfe]
    | some l =>
      intro _
      refine ⟨_, by simpa [integerSchema, hfe] using h3 l hfe, .number hz ?_⟩
      split
      · exact .int i
      · next hlt =>
        have e : ((i.toNat : Int) : Rat) = i := by exact_mod_cast Int.toNat_of_nonneg (by omega)
        rw [← e]
        exact_mod_cast JsonNumber.uint i.toNat
  · intro m q y hm hq hy
    rw [JsonNumber.unique hy hz]
    simp only [integerSchema, Option.map_eq_some_iff] at hm
    obtain ⟨z', e1, rfl⟩ := hm
    cases hq
    exact_mod_cast h1 z' e1
  · intro m q y hm hq hy
    rw [JsonNumber.unique hy hz]
    simp only [integerSchema, Option.map_eq_some_iff] at hm
    obtain ⟨z', e1, rfl⟩ := hm
    cases hq
    exact_mod_cast h2 z' e1
  all_goals simp [integerSchema, hmul, x0, x3, x9, x11, x12, baseCore]

theorem number_of_asserts {f : NumberF} (hmin : ∀ m, f.minimum = some m → ∃ q, m = .fin q)
    (hmax : ∀ m, f.maximum = some m → ∃ q, m = .fin q) (he : ∀ l, f.enum = some l → l ≠ [] ∧ ∀ e ∈ l, ∃ q, e = .float (.fin q))
    (hT : T (.number f)) {v : GoVal} (hv : Common E T v) (ha : Asserts E B (numberSchema x f) v) : NumberOK E.toF64 f v := by
  obtain ⟨q', hq'⟩ := (hasType_inv (ha.type (by simp [numberSchema]))).2.2.2.2.2.2 rfl
  rcases numberValue_of_common hT hv with ⟨q, h1, h2⟩ | hno
  · refine ⟨.fin q, h2, ⟨fun m hm => ?_, fun m hm => ?_⟩, fun es hes => ⟨by simp, ?_⟩⟩
    · obtain ⟨p, rfl⟩ := hmin m hm
      have := ha.minimum (.float (.fin p)) p q (by simp [numberSchema, hm]) (.float p) h1
      rintro ⟨hlt⟩
      linarith
    · obtain ⟨p, rfl⟩ := hmax m hm
      have := ha.maximum (.float (.fin p)) p q (by simp [numberSchema, hm]) (.float p) h1
      rintro ⟨hlt⟩
      linarith
    · obtain ⟨hne, hel⟩ := he es hes
      obtain ⟨d, hd, hs⟩ := ha.enum (by simp [numberSchema, hes, hne])
      replace hd : d ∈ es := by simpa [numberSchema, hes] using hd
      have hn := jsonSame_number h1 hs
      obtain ⟨p, rfl⟩ := hel d hd
      rw [← JsonNumber.unique (.float p) hn]
      exact hd
  · exact absurd hq' ((hno .nan).2 _)

theorem asserts_of_number (hx : NodeOf w h P b x) {f : NumberF} (hmul : f.multipleOf = none) (hT : T (.number f)) {v : GoVal}
    (hv : Common E T v) (hok : NumberOK E.toF64 f v) : Asserts E B (numberSchema x f) v := by
  obtain ⟨x0, -, -, x3, -, -, -, -, -, x9, -, x11, x12, -⟩ := hx.sub
  obtain ⟨y, hy, ⟨h1, h2⟩, h3⟩ := hok
  obtain ⟨q, hq, hnq⟩ : ∃ q : Rat, JsonNumber v q ∧ NumberValue E.toF64 v (.fin q) :=
    (numberValue_of_common hT hv).resolve_right fun hno => (hno y).1 hy
  have := NumberValue.unique hy hnq
  subst this
  refine ⟨fun _ => .number q hq, ?_, ?_, ?_, ?_, ?_, ?_, ?_, ?_, ?_, ?_, ?_, ?_, ?_, ?_, ?_, ?_, ?_, ?_⟩
  · cases hfe : f.enum with
    | none => simp [numberSchema, hfe]
    | some l => intro _; exact ⟨_, by simpa [numberSchema, hfe] using (h3 l hfe).2, .number hq (.float q)⟩
  · intro m p r hm hp hr
    rw [JsonNumber.unique hr hq]
    simp only [numberSchema, Option.map_eq_some_iff] at hm
    obtain ⟨z', e1, rfl⟩ := hm
    cases hp
    exact not_lt.1 fun hlt => h1 _ e1 (.fin hlt)
  · intro m p r hm hp hr
    rw [JsonNumber.unique hr hq]
    simp only [numberSchema, Option.map_eq_some_iff] at hm
    obtain ⟨z', e1, rfl⟩ := hm
    cases hp
    exact not_lt.1 fun hlt => h2 _ e1 (.fin hlt)
  all_goals simp [numberSchema, hmul, x0, x3, x9, x11, x12, baseCore]

theorem array_of_asserts {A : Addr → GoVal → Prop} {f : ArrayF} (hT : T (.array f)) {it : Option JS}
    (h2 : ∀ i, f.items = some i → ∃ t, it = some t ∧ P (some t) i) {v : GoVal} (hv : Common E T v)
    (hBA : ∀ y s v, Common E T v → P (some s) y → B s v → A y v) (ha : Asserts E B (arraySchema x f it) v) : ArrayOK E.hash A f v := by
  obtain ⟨l, rfl⟩ := (hasType_inv (ha.type (by simp [arraySchema]))).2.2.2.2.1 rfl
  cases hv with
  | arr _ hl hh =>
    refine ⟨l, rfl, ⟨fun m hm => ha.minItems m l hm rfl, fun m hm => ha.maxItems m l hm rfl⟩, fun i hi y hy => ?_, fun hu => ?_⟩
    · obtain ⟨t, e1, e2⟩ := h2 i hi
      exact hBA i t y (hl y hy) e2 (ha.items t l e1 rfl y hy)
    · obtain ⟨hsome, hsame⟩ := hh f hT hu
      have hval : ∀ y ∈ l, E.hash y = some ((E.hash y).getD 0) := by
        intro y hy
        cases e : E.hash y with
        | none => exact absurd e (hsome y hy)
        | some n => rfl
      refine ⟨l.map fun y => (E.hash y).getD 0, ?_, ?_⟩
      · rw [List.map_map]
        exact List.map_congr_left hval
      · refine List.pairwise_map.2 ((ha.uniqueItems l hu rfl).imp_of_mem fun {y z} hy hz hne heq => hne ((hsame y hy z hz).1 ?_))
        rw [hval y hy, hval z hz, heq]

theorem asserts_of_array {A : Addr → GoVal → Prop} (hx : NodeOf w h P b x) {f : ArrayF} (hT : T (.array f)) {it : Option JS}
    (h1 : f.items = none → it = none) (h2 : ∀ i, f.items = some i → ∃ t, it = some t ∧ P (some t) i) {v : GoVal} (hv : Common E T v)
    (hAB : ∀ y s v, Common E T v → P (some s) y → A y v → B s v) (hok : ArrayOK E.hash A f v) : Asserts E B (arraySchema x f it) v := by
  obtain ⟨x0, -, -, x3, -, -, -, -, -, x9, -, x11, x12, -⟩ := hx.sub
  obtain ⟨l, rfl, ⟨h3, h4⟩, h5, h6⟩ := hok
  cases hv with
  | arr _ hl hh =>
    refine ⟨fun _ => .array l, ?_, ?_, ?_, ?_, ?_, ?_, ?_, ?_, ?_, ?_, ?_, ?_, ?_, ?_, ?_, ?_, ?_, ?_⟩
    · simp [arraySchema, x0, baseCore]
    · simp [arraySchema, x0, baseCore]
    · simp [arraySchema, x0, baseCore]
    · simp [arraySchema, x0, baseCore]
    · simp [arraySchema, x0, baseCore]
    · simp [arraySchema, x0, baseCore]
    · rintro m _ hm ⟨⟩; exact h3 m hm
    · rintro m _ hm ⟨⟩; exact h4 m hm
    · rintro t _ ht ⟨⟩ y hy
      change it = some t at ht
      cases hi : f.items with
      | none => rw [h1 hi] at ht; cases ht
      | some i =>
        obtain ⟨t', e1, e2⟩ := h2 i hi
        rw [ht] at e1; cases e1
        exact hAB i t y (hl y hy) e2 (h5 i hi y hy)
    · simp [arraySchema, x0, baseCore]
    · simp [arraySchema, x0, baseCore]
    · simp [arraySchema]
    · simp [arraySchema]
    · simp [arraySchema]
    · simp [arraySchema, x3]
    · simp [arraySchema, x0, baseCore]
    · rintro _ hu ⟨⟩
      obtain ⟨hs, e1, e2⟩ := h6 hu
      have e3 : (l.map E.hash).Nodup := by
        rw [e1]
        exact e2.map (Option.some_injective _)
      exact (List.pairwise_map.1 e3).imp_of_mem fun {y z} hy hz hne hsame => hne (((hh f hT hu).2 y hy z hz).2 hsame)
    · simp [arraySchema]

theorem union_of_asserts {A : Addr → GoVal → Prop} {m : List Addr} (hm : m ≠ []) {l : List (Option JS)}
    (hl : List.Forall₂ (fun y q => ∃ t, q = some t ∧ P (some t) y) m l) {v : GoVal} (hv : Common E T v)
    (hBA : ∀ y s v, Common E T v → P (some s) y → B s v → A y v) (ha : Asserts E B { x with anyOf := l } v) : ∃ y ∈ m, A y v := by
  have hne : l ≠ [] := by
    rintro rfl
    cases hl
    exact hm rfl
  obtain ⟨t, ht, hB⟩ := ha.anyOf hne
  obtain ⟨y, hy, t', e1, e2⟩ := forall₂_right hl _ ht
  cases e1
  exact ⟨y, hy, hBA y t v hv e2 hB⟩

theorem asserts_of_union {A : Addr → GoVal → Prop} (hx : NodeOf w h P b x) {m : List Addr} {l : List (Option JS)}
    (hl : List.Forall₂ (fun y q => ∃ t, q = some t ∧ P (some t) y) m l) {v : GoVal} (hv : Common E T v)
    (hAB : ∀ y s v, Common E T v → P (some s) y → A y v → B s v) (hok : ∃ y ∈ m, A y v) : Asserts E B { x with anyOf := l } v := by
  obtain ⟨x0, -, -, x3, -, -, -, -, -, x9, -, x11, x12, -⟩ := hx.sub
  obtain ⟨y, hy, hA⟩ := hok
  obtain ⟨q, hq, t, rfl, e2⟩ := forall₂_left hl y hy
  refine ⟨?_, ?_, ?_, ?_, ?_, ?_, ?_, ?_, ?_, ?_, ?_, ?_, ?_, ?_, ?_, fun _ => ⟨t, hq, hAB y t v hv e2 hA⟩, ?_, ?_, ?_⟩ <;>
    simp [x0, x9, x11, x12, baseCore]

theorem schemaDeclares_of_mem {ps : OMap Property} (hn : (ps.map (·.1)).Nodup) {k : String} {p : Property} (hm : (k, p) ∈ ps) : Declares ps k p :=
  (OMap.get_some_iff ps k p).1 ((OMap.mem_iff_get hn k p).1 hm)

theorem mem_of_declares {ps : OMap Property} {k : String} {p : Property} (hd : Declares ps k p) : (k, p) ∈ ps := by
  obtain ⟨pre, post, rfl, -⟩ := hd
  simp

/-- The schemas of properties, seen from the properties and from the schemas. -/
structure PropsFor (h : St) (P : Option JS → Addr → Prop) (f : ObjectF) (ps : Option (List (String × Option JS))) : Prop where
  fwd : ∀ k p, (k, p) ∈ h.props f.properties → ∃ l t, ps = some l ∧ (k, some t) ∈ l ∧ P (some t) p.base
  bwd : ∀ l k q, ps = some l → (k, q) ∈ l → ∃ p t, (k, p) ∈ h.props f.properties ∧ q = some t ∧ P (some t) p.base

theorem propsFor {f : ObjectF} {ps : Option (List (String × Option JS))} (h1 : f.properties = none → ps = none)
    (h2 : f.properties ≠ none → ∃ l, ps = some l ∧
      List.Forall₂ (fun e q => q.1 = e.1 ∧ ∃ t, q.2 = some t ∧ P (some t) e.2) ((h.props f.properties).map fun e => (e.1, e.2.base)) l) :
    PropsFor h P f ps := by
  constructor
  · intro k p hp
    have hne : f.properties ≠ none := by intro e; rw [e] at hp; simp [St.props] at hp
    obtain ⟨l, e1, e2⟩ := h2 hne
    obtain ⟨⟨k', q⟩, hq, e3, t, e4, e5⟩ := forall₂_left e2 (k, p.base) (List.mem_map.2 ⟨(k, p), hp, rfl⟩)
    dsimp only at e3 e4
    subst e3; subst e4
    exact ⟨l, t, e1, hq, e5⟩
  · intro l k q hl hq
    have hne : f.properties ≠ none := by intro e; rw [h1 e] at hl; cases hl
    obtain ⟨l', e1, e2⟩ := h2 hne
    rw [hl] at e1; cases e1
    obtain ⟨e, he, e3, t, e4, e5⟩ := forall₂_right e2 _ hq
    obtain ⟨⟨k', p⟩, hp, rfl⟩ := List.mem_map.1 he
    dsimp only at e3 e4
    subst e3; subst e4
    exact ⟨p, t, hp, rfl, e5⟩

theorem trimSlashes_delimited (r : String) : trimSlashes ("/" ++ r ++ "/") = .ok r := by
  have hl : ("/" ++ r ++ "/").length = r.length + 2 := by
    simp only [String.length_append]
    have : "/".length = 1 := by decide
    omega
  unfold trimSlashes
  rw [if_neg (by omega)]
  have e : ("/" ++ r ++ "/").toList.tail.dropLast = r.toList := by
    simp only [String.toList_append]
    have : "/".toList = ['/'] := by decide
    rw [this]
    simp
  rw [e, String.ofList_toList]

/-- The schemas of pattern properties, seen from both sides. -/
structure PatternsFor (h : St) (P : Option JS → Addr → Prop) (f : ObjectF) (pps : Option (List (String × Option JS))) : Prop where
  fwd : ∀ e ∈ h.patProps f.patternProperties, ∃ l t, pps = some l ∧ (e.2.pattern, some t) ∈ l ∧ P (some t) e.2.base
  bwd : ∀ l r q, pps = some l → (r, q) ∈ l → ∃ e t, e ∈ h.patProps f.patternProperties ∧ e.2.pattern = r ∧ q = some t ∧ P (some t) e.2.base

theorem patternsFor {f : ObjectF} {pps : Option (List (String × Option JS))}
    (hdel : ∀ e ∈ h.patProps f.patternProperties, e.1 = "/" ++ e.2.pattern ++ "/") (h1 : f.patternProperties = none → pps = none)
    (h2 : f.patternProperties ≠ none → ∃ l, pps = some l ∧
      List.Forall₂ (fun e q => trimSlashes e.1 = .ok q.1 ∧ ∃ t, q.2 = some t ∧ P (some t) e.2.base) (h.patProps f.patternProperties) l) :
    PatternsFor h P f pps := by
  constructor
  · intro e he
    have hne : f.patternProperties ≠ none := by intro e'; rw [e'] at he; simp [St.patProps] at he
    obtain ⟨l, e1, e2⟩ := h2 hne
    obtain ⟨⟨r, q⟩, hq, e3, t, e4, e5⟩ := forall₂_left e2 e he
    dsimp only at e3 e4
    rw [hdel e he, trimSlashes_delimited] at e3
    cases e3; subst e4
    exact ⟨l, t, e1, hq, e5⟩
  · intro l r q hl hq
    have hne : f.patternProperties ≠ none := by intro e; rw [h1 e] at hl; cases hl
    obtain ⟨l', e1, e2⟩ := h2 hne
    rw [hl] at e1; cases e1
    obtain ⟨e, he, e3, t, e4, e5⟩ := forall₂_right e2 _ hq
    dsimp only at e3 e4
    rw [hdel e he, trimSlashes_delimited] at e3
    cases e3; subst e4
    exact ⟨e, t, he, rfl, rfl, e5⟩

theorem object_of_asserts {A : Addr → GoVal → Prop} {f : ObjectF} {ps pps : Option (List (String × Option JS))}
    (hadd : h.patProps f.patternProperties ≠ [] → f.additionalProperties ≠ some false) (hps : PropsFor h P f ps) (hpps : PatternsFor h P f pps)
    {v : GoVal} (hv : Common E T v) (hBA : ∀ y s v, Common E T v → P (some s) y → B s v → A y v)
    (ha : Asserts E B (objectSchema h x f ps pps) v) : ObjectOK E.reMatch A h f v := by
  obtain ⟨m, rfl⟩ := (hasType_inv (ha.type (by simp [objectSchema]))).2.2.2.2.2.1 rfl
  have hm : ∀ e ∈ m, Common E T e.2 := by cases hv with | map _ _ hs => exact hs
  refine ⟨m, rfl, ⟨fun n hn => ha.minProperties n m hn rfl, fun n hn => ha.maxProperties n m hn rfl⟩, ?_, ?_, ?_⟩
  · intro p hp hr
    refine ha.required m rfl p.1 ?_
    exact List.mem_map.2 ⟨p, List.mem_filter.2 ⟨hp, hr⟩, rfl⟩
  · intro k y p hk hd
    obtain ⟨l, t, e1, e2, e3⟩ := hps.fwd k p (mem_of_declares hd)
    exact hBA _ t y (hm _ hk) e3 (ha.properties m l rfl e1 k y t hk e2)
  · intro k y hk hno
    refine ⟨fun hf => ?_, ?_⟩
    · obtain ⟨q, hq, e⟩ | ⟨q, hq, e⟩ := ha.additional m rfl hf _ hk
      · change q ∈ ps.getD [] at hq
        cases hp : ps with
        | none => rw [hp] at hq; cases hq
        | some l =>
          rw [hp] at hq
          obtain ⟨p, t, hp, -, -⟩ := hps.bwd l q.1 q.2 hp hq
          exact hno _ hp e
      · change q ∈ pps.getD [] at hq
        cases hp : pps with
        | none => rw [hp] at hq; cases hq
        | some l =>
          rw [hp] at hq
          obtain ⟨p, t, hp, -⟩ := hpps.bwd l q.1 q.2 hp hq
          exact hadd (List.ne_nil_of_mem hp) hf
    · by_cases hany : ∃ e ∈ h.patProps f.patternProperties, E.reMatch e.2.pattern k = true
      · obtain ⟨e, he, hmt⟩ := hany
        obtain ⟨l, t, e1, e2, e3⟩ := hpps.fwd e he
        exact Or.inr ⟨e, he, hmt, hBA _ t y (hm _ hk) e3 (ha.patternProperties m l rfl e1 k y _ t hk e2 hmt)⟩
      · refine Or.inl fun e he => ?_
        cases hmt : E.reMatch e.2.pattern k with
        | false => rfl
        | true => exact absurd ⟨e, he, hmt⟩ hany

theorem asserts_of_object {A : Addr → GoVal → Prop} (hx : NodeOf w h P b x) {f : ObjectF} {ps pps : Option (List (String × Option JS))}
    (hn : ((h.props f.properties).map (·.1)).Nodup) (hap : PatternsApart E h f) (hps : PropsFor h P f ps) (hpps : PatternsFor h P f pps)
    {v : GoVal} (hv : Common E T v) (hAB : ∀ y s v, Common E T v → P (some s) y → A y v → B s v) (hok : ObjectOK E.reMatch A h f v) :
    Asserts E B (objectSchema h x f ps pps) v := by
  obtain ⟨x0, -, -, x3, -, -, -, -, -, x9, -, x11, x12, -⟩ := hx.sub
  obtain ⟨m, rfl, ⟨h3, h4⟩, h5, h6, h7⟩ := hok
  have hm : ∀ e ∈ m, Common E T e.2 := by cases hv with | map _ _ hs => exact hs
  refine ⟨fun _ => .object m, ?_, ?_, ?_, ?_, ?_, ?_, ?_, ?_, ?_, ?_, ?_, ?_, ?_, ?_, ?_, ?_, ?_, ?_⟩
  · simp [objectSchema, x0, baseCore]
  · simp [objectSchema, x0, baseCore]
  · simp [objectSchema, x0, baseCore]
  · simp [objectSchema, x0, baseCore]
  · simp [objectSchema, x0, baseCore]
  · simp [objectSchema, x0, baseCore]
  · simp [objectSchema, x0, baseCore]
  · simp [objectSchema, x0, baseCore]
  · simp [objectSchema, x9]
  · rintro n _ hn ⟨⟩; exact h3 n hn
  · rintro n _ hn ⟨⟩; exact h4 n hn
  · rintro _ ⟨⟩ k hk
    obtain ⟨p, hp, rfl⟩ := List.mem_map.1 hk
    obtain ⟨hp, hr⟩ := List.mem_filter.1 hp
    exact h5 p hp hr
  · rintro _ l ⟨⟩ hl k y t hk ht
    change ps = some l at hl
    obtain ⟨p, t', hp, e1, e2⟩ := hps.bwd l k _ hl ht
    cases e1
    exact hAB _ t y (hm _ hk) e2 (h6 k y p hk (schemaDeclares_of_mem hn hp))
  · rintro _ ⟨⟩ hadd e he
    by_contra hcon
    refine (h7 e.1 e.2 he ?_).1 hadd
    intro q hq heq
    obtain ⟨l, t, e1, e2, -⟩ := hps.fwd q.1 q.2 hq
    refine hcon (Or.inl ⟨(q.1, some t), ?_, heq⟩)
    show _ ∈ ps.getD []
    rw [e1]; exact e2
  · simp [objectSchema, x3]
  · simp [objectSchema, x0, baseCore]
  · simp [objectSchema, x0, baseCore]
  · rintro _ l ⟨⟩ hl k y r t hk ht hmt
    change pps = some l at hl
    obtain ⟨e, t', he, rfl, e1, e2⟩ := hpps.bwd l r _ hl ht
    cases e1
    have hno : ∀ q ∈ h.props f.properties, q.1 ≠ k := by
      rintro q hq rfl
      have := hap.undeclared e he q hq
      rw [hmt] at this
      cases this
    rcases (h7 k y hk hno).2 with hnone | ⟨e', he', hmt', hA⟩
    · have := hnone e he
      rw [hmt] at this
      cases this
    · have := hap.apart e he e' he' k hmt hmt'
      subst this
      exact hAB _ t y (hm _ hk) e2 hA

end

theorem covered_of_convertible {E : Ext} {h : St} {a : Addr} (hc : Convertible E h a) : Covered E h a := by
  intro y hy
  obtain ⟨s, hs, hk⟩ := hc y hy
  refine ⟨s, hs, ?_⟩
  cases s <;> first | trivial | exact hk | exact hk.1 | exact ⟨hk.1, hk.2.1⟩ | exact absurd hk (by simp [ConvertibleShape])

theorem covered_noEmbedded {E : Ext} {h : St} {a : Addr} (hc : Covered E h a) : NoEmbedded h a := by
  intro y hy
  obtain ⟨s, hs, hk⟩ := hc y hy
  refine ⟨s, hs, ?_, ?_⟩
  · rintro f rfl; exact hk
  · rintro raw sc rfl; exact hk

theorem convertible_noEmbedded {E : Ext} {h : St} {a : Addr} (hc : Convertible E h a) : NoEmbedded h a :=
  covered_noEmbedded (covered_of_convertible hc)

theorem refTo_ne (k : String) : refTo k ≠ "" := by
  intro e
  have := congrArg String.length e
  simp [refTo, String.length_append] at this

theorem refTo_inj {k k' : String} (e : refTo k = "#/definitions/" ++ k') : k = k' := (String.append_right_inj _).1 e

section
variable {w : Wrap} {h : St} {a : Addr} {b0 : Base} {D : Defs} {E : Ext}

/-- The definition a reference to `hd` stands for is made from `hd`. -/
theorem definition_of (hne : NoEmbedded h a) (hd : DistinctNames h a) (hc : Converted w h a b0 D) {y : Addr} {b : Base} (hdef : DefinedBy h a y)
    (hb : h.base y = some b) {x : Option JS} (hx : (b.name, x) ∈ D) : ∃ t, x = some t ∧ Made w h a D.keys (some t) y := by
  obtain ⟨hd', b', q1, q2, q3, q4⟩ := hc.entries _ _ hx
  have : hd' = y := hd _ _ _ _ q1 hdef q2 hb q3
  subst this
  obtain ⟨t, rfl, -⟩ := q4.parts hne
  exact ⟨t, rfl, q4⟩

theorem schemaStep_ref {B : JS → GoVal → Prop} {k : String} {v : GoVal} :
    SchemaStep E D B { core := { ref := refTo k } } v ↔ ∃ t, (k, some t) ∈ D ∧ B t v := by
  unfold SchemaStep
  rw [if_neg (refTo_ne _)]
  constructor
  · rintro ⟨k, t, h1, h2, h3⟩
    have := refTo_inj h1
    subst this
    exact ⟨t, h2, h3⟩
  · rintro ⟨t, h2, h3⟩
    exact ⟨_, t, rfl, h2, h3⟩

/-- What a type made of covered types allows, its schema allows. -/
theorem schemaStep_of_step (hcv : Covered E h a) (hd : DistinctNames h a) (hc : Converted w h a b0 D) {y : Addr} {s : JS}
    (hm : Made w h a D.keys (some s) y) {v : GoVal} (hv : Common E (Involved h a) v) (A : Addr → GoVal → Prop) (B : JS → GoVal → Prop)
    (hAB : ∀ y s v, Common E (Involved h a) v → Made w h a D.keys (some s) y → A y v → B s v) (hst : Step E h A y v) :
    SchemaStep E D B s v := by
  have hne := covered_noEmbedded hcv
  obtain ⟨b, K', hb, hK, hl⟩ := hm.level
  obtain ⟨sh, hsh, hk⟩ := hcv y hm.1
  have hbs : b.shape = some sh := by simpa [St.shapeAt, hb] using hsh
  have hT : Involved h a sh := ⟨y, hm.1, hsh⟩
  rw [hbs] at hl
  have hsome : ∀ q z, Made w h a K' q z → ∃ t, q = some t ∧ Made w h a D.keys (some t) z := by
    intro q z hq
    obtain ⟨t, rfl, -⟩ := hq.parts hne
    exact ⟨t, rfl, made_mono w h a _ _ _ _ hK hq⟩
  unfold Step at hst
  rw [hsh] at hst
  have hplain : s.core.ref = "" → Asserts E B s v → SchemaStep E D B s v := by
    intro hr hp
    unfold SchemaStep; rw [if_pos hr]; exact hp
  have hnode : ∀ {x : JS}, NodeOf w h (Made w h a K') b x → x.core.ref = "" ∧ NodeOf w h (Made w h a D.keys) b x := by
    intro x hx
    exact ⟨by rw [hx.sub.1]; rfl, hx.mono fun r z hz => made_mono w h a _ _ _ _ hK hz⟩
  cases sh with
  | any => exact hplain (by have := (hnode hl.1).1; exact this) (asserts_any (x := s) hl.1 v)
  | nil =>
    obtain ⟨x, hx, hs⟩ := hl
    cases hs
    exact hplain (hnode hx).1 ((asserts_nil hx v).2 hst)
  | boolean e =>
    obtain ⟨x, hx, hs⟩ := hl
    cases hs
    exact hplain (hnode hx).1 (asserts_of_boolean hx hst)
  | string f =>
    obtain ⟨x, hx, hs⟩ := hl
    cases hs
    exact hplain (hnode hx).1 (asserts_of_string hx hv hst)
  | integer f =>
    obtain ⟨x, hx, hs⟩ := hl
    cases hs
    exact hplain (hnode hx).1 (asserts_of_integer hx hk hT hv hst)
  | number f =>
    obtain ⟨x, hx, hs⟩ := hl
    cases hs
    exact hplain (hnode hx).1 (asserts_of_number hx hk hT hv hst)
  | file f =>
    obtain ⟨x, y, hx, hy, hs⟩ := hl
    cases hs
    refine hplain ?_ ((asserts_file hx hy hv).2 hst)
    obtain ⟨mt, rfl⟩ := fileSchema_core hy
    exact (hnode hx).1
  | datetime f =>
    obtain ⟨x, hx, hs⟩ := hl
    cases hs
    obtain ⟨t, rfl⟩ : ∃ t, v = .str t := by
      simp only [DateTimeOK, TimeOK] at hst
      split at hst
      · exact ⟨_, hst.choose_spec.1⟩
      · exact ⟨_, hst.choose_spec.1⟩
      · exact ⟨_, hst.choose_spec.1⟩
      · exact hst
    refine hplain ?_ (asserts_datetime hx hk t)
    unfold datetimeSchema
    split <;> exact (hnode hx).1
  | dateOnly =>
    obtain ⟨x, hx, hs⟩ := hl
    cases hs
    obtain ⟨t, rfl, -⟩ := hst
    exact hplain (hnode hx).1 (asserts_format hx _ t)
  | timeOnly =>
    obtain ⟨x, hx, hs⟩ := hl
    cases hs
    obtain ⟨t, rfl, -⟩ := hst
    exact hplain (hnode hx).1 (asserts_format hx _ t)
  | array f =>
    obtain ⟨x, it, hx, hs, h1, h2⟩ := hl
    cases hs
    exact hplain (hnode hx).1 (asserts_of_array (hnode hx).2 hT h1 (fun i hi => hsome _ _ (h2 i hi)) hv hAB hst)
  | union m e =>
    obtain ⟨x, l, hx, hs, h1⟩ := hl
    cases hs
    exact hplain (hnode hx).1 (asserts_of_union (hnode hx).2 (h1.imp fun z q hq => hsome q z hq) hv hAB hst)
  | object f =>
    obtain ⟨x, ps, pps, hx, hs, h1, h2, h3, h4⟩ := hl
    cases hs
    refine hplain (hnode hx).1 (asserts_of_object (hnode hx).2 hk.1 hk.2 (propsFor h1 fun hp => ?_)
      (patternsFor hk.2.delimited h3 fun hp => ?_) hv hAB hst)
    · obtain ⟨l, e1, e2⟩ := h2 hp
      exact ⟨l, e1, e2.imp fun e q hq => ⟨hq.1, hsome _ _ hq.2⟩⟩
    · obtain ⟨l, e1, e2⟩ := h4 hp
      exact ⟨l, e1, e2.imp fun e q hq => ⟨hq.1, hsome _ _ hq.2⟩⟩
  | recursive hd' =>
    obtain ⟨b', e1, e2, hs⟩ := hl
    cases hs
    have hdef : DefinedBy h a hd' := Or.inr ⟨y, hm.1, hsh⟩
    obtain ⟨⟨k, x⟩, hx, hk'⟩ := List.mem_map.1 (hK e2)
    dsimp only at hk'
    subst hk'
    obtain ⟨t, rfl, e4⟩ := definition_of hne hd hc hdef e1 hx
    exact schemaStep_ref.2 ⟨t, hx, hAB _ _ _ hv e4 hst⟩
  | _ => exact absurd hk (by simp [CoveredShape])

/-- What the schema of a type made of types in scope allows, the type allows. -/
theorem step_of_schemaStep (hcv : Convertible E h a) (hd : DistinctNames h a) (hc : Converted w h a b0 D) {y : Addr} {s : JS}
    (hm : Made w h a D.keys (some s) y) {v : GoVal} (hv : Common E (Involved h a) v) (A : Addr → GoVal → Prop) (B : JS → GoVal → Prop)
    (hBA : ∀ y s v, Common E (Involved h a) v → Made w h a D.keys (some s) y → B s v → A y v) (hst : SchemaStep E D B s v) :
    Step E h A y v := by
  have hne := convertible_noEmbedded hcv
  obtain ⟨b, K', hb, hK, hl⟩ := hm.level
  obtain ⟨sh, hsh, hk⟩ := hcv y hm.1
  have hbs : b.shape = some sh := by simpa [St.shapeAt, hb] using hsh
  have hT : Involved h a sh := ⟨y, hm.1, hsh⟩
  rw [hbs] at hl
  have hsome : ∀ q z, Made w h a K' q z → ∃ t, q = some t ∧ Made w h a D.keys (some t) z := by
    intro q z hq
    obtain ⟨t, rfl, -⟩ := hq.parts hne
    exact ⟨t, rfl, made_mono w h a _ _ _ _ hK hq⟩
  unfold Step
  rw [hsh]
  have hplain : s.core.ref = "" → Asserts E B s v := by
    intro hr
    unfold SchemaStep at hst; rw [if_pos hr] at hst; exact hst
  have hnode : ∀ {x : JS}, NodeOf w h (Made w h a K') b x → x.core.ref = "" ∧ NodeOf w h (Made w h a D.keys) b x := by
    intro x hx
    exact ⟨by rw [hx.sub.1]; rfl, hx.mono fun r z hz => made_mono w h a _ _ _ _ hK hz⟩
  cases sh with
  | any => trivial
  | nil =>
    obtain ⟨x, hx, hs⟩ := hl
    cases hs
    exact (asserts_nil hx v).1 (hplain (hnode hx).1)
  | boolean e =>
    obtain ⟨x, hx, hs⟩ := hl
    cases hs
    exact boolean_of_asserts hk (hplain (hnode hx).1)
  | string f =>
    obtain ⟨x, hx, hs⟩ := hl
    cases hs
    exact string_of_asserts hk.1 hk.2 hv (hplain (hnode hx).1)
  | integer f =>
    obtain ⟨x, hx, hs⟩ := hl
    cases hs
    exact Or.inl (integer_of_asserts hk.2 hT hv (hplain (hnode hx).1))
  | number f =>
    obtain ⟨x, hx, hs⟩ := hl
    cases hs
    exact number_of_asserts hk.2.1 hk.2.2.1 hk.2.2.2 hT hv (hplain (hnode hx).1)
  | file f =>
    obtain ⟨x, y, hx, hy, hs⟩ := hl
    cases hs
    refine (asserts_file hx hy hv).1 (hplain ?_)
    obtain ⟨mt, rfl⟩ := fileSchema_core hy
    exact (hnode hx).1
  | array f =>
    obtain ⟨x, it, hx, hs, h1, h2⟩ := hl
    cases hs
    exact array_of_asserts hT (fun i hi => hsome _ _ (h2 i hi)) hv hBA (hplain (hnode hx).1)
  | union m e =>
    obtain ⟨x, l, hx, hs, h1⟩ := hl
    cases hs
    exact union_of_asserts hk (h1.imp fun z q hq => hsome q z hq) hv hBA (hplain (hnode hx).1)
  | object f =>
    obtain ⟨x, ps, pps, hx, hs, h1, h2, h3, h4⟩ := hl
    cases hs
    refine object_of_asserts hk.2.2 (propsFor h1 fun hp => ?_) (patternsFor hk.2.1.delimited h3 fun hp => ?_) hv hBA (hplain (hnode hx).1)
    · obtain ⟨l, e1, e2⟩ := h2 hp
      exact ⟨l, e1, e2.imp fun e q hq => ⟨hq.1, hsome _ _ hq.2⟩⟩
    · obtain ⟨l, e1, e2⟩ := h4 hp
      exact ⟨l, e1, e2.imp fun e q hq => ⟨hq.1, hsome _ _ hq.2⟩⟩
  | recursive hd' =>
    obtain ⟨b', e1, e2, hs⟩ := hl
    cases hs
    have hdef : DefinedBy h a hd' := Or.inr ⟨y, hm.1, hsh⟩
    obtain ⟨t, ht, hB⟩ := schemaStep_ref.1 hst
    obtain ⟨t', e3, e4⟩ := definition_of hne hd hc hdef e1 ht
    cases e3
    exact hBA _ _ _ hv e4 hB
  | _ => exact absurd hk (by simp [ConvertibleShape])

theorem Spec.Asserts.mono {P Q : JS → GoVal → Prop} (hPQ : ∀ s v, P s v → Q s v) {s : JS} {v : GoVal} (ha : Asserts E P s v) : Asserts E Q s v :=
  { ha with
    items := fun t l ht hl x hx => hPQ _ _ (ha.items t l ht hl x hx)
    properties := fun m ps hm hp k x t hk ht => hPQ _ _ (ha.properties m ps hm hp k x t hk ht)
    patternProperties := fun m ps hm hp k x r t hk ht hr => hPQ _ _ (ha.patternProperties m ps hm hp k x r t hk ht hr)
    anyOf := fun hne => by obtain ⟨t, h1, h2⟩ := ha.anyOf hne; exact ⟨t, h1, hPQ _ _ h2⟩ }

theorem Spec.SchemaStep.mono {D : List (String × Option JS)} {P Q : JS → GoVal → Prop} (hPQ : ∀ s v, P s v → Q s v) {s : JS} {v : GoVal}
    (ha : SchemaStep E D P s v) : SchemaStep E D Q s v := by
  unfold SchemaStep at ha ⊢
  split
  · next hr => rw [if_pos hr] at ha; exact ha.mono hPQ
  · next hr =>
    rw [if_neg hr] at ha
    obtain ⟨k, t, h1, h2, h3⟩ := ha
    exact ⟨k, t, h1, h2, hPQ _ _ h3⟩

theorem schemaValid_step {D : List (String × Option JS)} {s : JS} {v : GoVal} :
    SchemaValid E D s v ↔ SchemaStep E D (SchemaValid E D) s v := by
  have closed : ∀ s v, SchemaStep E D (SchemaValid E D) s v → SchemaValid E D s v := fun s v hs P hP =>
    hP s v (hs.mono fun t u ht => ht P hP)
  exact ⟨fun hs => hs _ fun s v h1 => h1.mono closed, closed s v⟩

theorem made_accepts (hcv : Covered E h a) (hd : DistinctNames h a) (hc : Converted w h a b0 D) {y : Addr} {s : JS}
    (hm : Made w h a D.keys (some s) y) {v : GoVal} (hv : Common E (Involved h a) v) (hval : Valid E h y v) : SchemaValid E D s v := by
  refine hval (fun y v => Common E (Involved h a) v → ∀ s, Made w h a D.keys (some s) y → SchemaValid E D s v) ?_ hv s hm
  intro y v hs hv s hm
  exact schemaValid_step.2 (schemaStep_of_step hcv hd hc hm hv _ _ (fun y s v hv hm hA => hA hv s hm) hs)

theorem made_valid (hcv : Convertible E h a) (hd : DistinctNames h a) (hc : Converted w h a b0 D) {y : Addr} {s : JS}
    (hm : Made w h a D.keys (some s) y) {v : GoVal} (hv : Common E (Involved h a) v) : Valid E h y v ↔ SchemaValid E D s v := by
  refine ⟨made_accepts (covered_of_convertible hcv) hd hc hm hv, fun hval => ?_⟩
  refine hval (fun s v => Common E (Involved h a) v → ∀ y, Made w h a D.keys (some s) y → Valid E h y v) ?_ hv y hm
  intro s v hs hv y hm
  exact (valid_iff_step E h y v).2 (step_of_schemaStep hcv hd hc hm hv _ _ (fun y s v hv hm hB => hB hv y hm) hs)

/-- The root schema stands for the schema of the converted type. -/
theorem converted_root (hne : NoEmbedded h a) (hd : DistinctNames h a) (hc : Converted w h a b0 D) :
    ∃ t, Made w h a D.keys (some t) a ∧ ∀ v, SchemaValid E D (rootSchema b0.name D) v ↔ SchemaValid E D t v := by
  obtain ⟨⟨k, x⟩, hx, hk⟩ := List.mem_map.1 hc.root
  dsimp only at hk
  subst hk
  obtain ⟨t, rfl, e⟩ := definition_of hne hd hc (Or.inl rfl) hc.base hx
  refine ⟨t, e, fun v => ?_⟩
  rw [schemaValid_step (s := rootSchema b0.name D)]
  unfold SchemaStep
  rw [if_neg (show (rootSchema b0.name D).core.ref ≠ "" from refTo_ne _)]
  constructor
  · rintro ⟨k, t', h1, h2, h3⟩
    have := refTo_inj h1
    subst this
    have e1 := (OMap.mem_iff_get hc.nodup _ _).1 hx
    have e2 := (OMap.mem_iff_get hc.nodup _ _).1 h2
    rw [e1] at e2
    cases e2
    exact h3
  · intro ht; exact ⟨_, t, rfl, hx, ht⟩

theorem converted_valid (hcv : Convertible E h a) (hd : DistinctNames h a) (hc : Converted w h a b0 D) {v : GoVal}
    (hv : Common E (Involved h a) v) : Valid E h a v ↔ SchemaValid E D (rootSchema b0.name D) v := by
  obtain ⟨t, e, ht⟩ := converted_root (E := E) (convertible_noEmbedded hcv) hd hc
  rw [ht, made_valid hcv hd hc e hv]

theorem converted_accepts (hcv : Covered E h a) (hd : DistinctNames h a) (hc : Converted w h a b0 D) {v : GoVal}
    (hv : Common E (Involved h a) v) (hval : Valid E h a v) : SchemaValid E D (rootSchema b0.name D) v := by
  obtain ⟨t, e, ht⟩ := converted_root (E := E) (covered_noEmbedded hcv) hd hc
  exact (ht v).2 (made_accepts hcv hd hc e hv hval)

end

end GoRaml
