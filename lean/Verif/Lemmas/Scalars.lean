import Verif.Model.Validate
import Verif.Spec.Valid
import Mathlib.Algebra.Order.Floor.Ring
import Mathlib.Data.Rat.Floor
import Mathlib.Tactic

namespace GoRaml

open Spec

/-- Scalar (comparable) Go values. -/
def GoVal.isScalarVal : GoVal → Bool
  | .arr _ => false
  | .map _ => false
  | _ => true

theorem F64.eq_iff (a b : F64) : F64.eq a b = true ↔ a = b ∧ a ≠ .nan := by
  cases a <;> cases b <;> simp [F64.eq]

theorem goEq_scalar {x : GoVal} (hx : x.isScalarVal = true) (e : GoVal) :
    ∃ b, GoVal.goEq e x = .ok b ∧ (b = true ↔ e = x ∧ x ≠ .float .nan) := by
  cases x <;> cases e <;> simp_all [GoVal.goEq, GoVal.isScalarVal, F64.eq_iff]

theorem enumHas_scalar {x : GoVal} (hx : x.isScalarVal = true) (es : List GoVal) :
    ∃ b, enumHas x es = .ok b ∧ (b = true ↔ x ∈ es ∧ x ≠ .float .nan) := by
  induction es with
  | nil => exact ⟨false, rfl, by simp⟩
  | cons e es ih =>
    obtain ⟨b, hb, hb'⟩ := goEq_scalar hx e
    obtain ⟨c, hc, hc'⟩ := ih
    cases b with
    | true =>
      refine ⟨true, by simp [enumHas, hb, Out.bind], ?_⟩
      have := hb'.1 rfl
      simp [this.1, this.2]
    | false =>
      refine ⟨c, by simp [enumHas, hb, Out.bind, hc], ?_⟩
      rw [hc']
      constructor
      · rintro ⟨h1, h2⟩; exact ⟨List.mem_cons_of_mem _ h1, h2⟩
      · rintro ⟨h1, h2⟩
        rcases List.mem_cons.1 h1 with h | h
        · exact absurd (hb'.2 ⟨h.symm, h2⟩) (by simp)
        · exact ⟨h, h2⟩

theorem checkEnum_scalar {x : GoVal} (hx : x.isScalarVal = true) (enum : Option (List GoVal)) :
    (checkEnum enum x = .ok () ∧ ∀ es, enum = some es → x ∈ es ∧ x ≠ .float .nan) ∨
    ((∃ m, checkEnum enum x = .err m) ∧ ¬ ∀ es, enum = some es → x ∈ es ∧ x ≠ .float .nan) := by
  cases enum with
  | none => left; simp [checkEnum]
  | some es =>
    obtain ⟨b, hb, hb'⟩ := enumHas_scalar hx es
    cases b with
    | true => left; simp [checkEnum, hb, Out.bind, hb'.1 rfl]
    | false =>
      right
      refine ⟨⟨_, by simp [checkEnum, hb, Out.bind]; rfl⟩, ?_⟩
      intro h
      have := hb'.2 (h es rfl)
      simp at this

theorem F64.lt_iff (a b : F64) : F64.lt a b = true ↔ FloatLt a b := by
  constructor
  · intro h
    cases a <;> cases b <;> simp [F64.lt] at h <;> constructor
    assumption
  · intro h
    cases h <;> simp_all [F64.lt]

theorem belowMin_eq_false {α : Type} (lt : α → α → Bool) (x : α) (lo : Option α) :
    belowMin lt x lo = false ↔ ∀ m, lo = some m → lt x m = false := by
  cases lo <;> simp [belowMin]

theorem aboveMax_eq_false {α : Type} (lt : α → α → Bool) (x : α) (hi : Option α) :
    aboveMax lt x hi = false ↔ ∀ m, hi = some m → lt m x = false := by
  cases hi <;> simp [aboveMax]

theorem inBounds_iff {α : Type} (lt : α → α → Bool) (le : α → α → Prop)
    (hle : ∀ a b, lt b a = false ↔ le a b) (lo hi : Option α) (x : α) :
    (belowMin lt x lo = false ∧ aboveMax lt x hi = false) ↔ Between le lo hi x := by
  rw [belowMin_eq_false, aboveMax_eq_false]
  unfold Between
  simp only [hle]

theorem intLt_false (a b : Int) : intLt b a = false ↔ a ≤ b := by simp [intLt]
theorem natLt_false (a b : Nat) : natLt b a = false ↔ a ≤ b := by simp [natLt]
theorem f64Lt_false (a b : F64) : F64.lt b a = false ↔ ¬ FloatLt b a := by
  rw [← F64.lt_iff]; simp

/-- Truncation toward zero of a rational as floor / ceiling. -/
theorem tdiv_pos (q : Rat) (hq : 0 ≤ q) : q.num.tdiv q.den = q.floor := by
  rw [Int.tdiv_eq_ediv_of_nonneg (Rat.num_nonneg.2 hq)]
  rw [Rat.floor_def]

theorem tdiv_neg (q : Rat) (hq : q < 0) : q.num.tdiv q.den = q.ceil := by
  have h := tdiv_pos (-q) (by linarith)
  rw [Rat.ceil_eq_neg_floor_neg, ← h]
  simp [Int.neg_tdiv]

theorem trunc_range (q : Rat) :
    (-(2 ^ 63 : Int) ≤ q.num.tdiv q.den ∧ q.num.tdiv q.den < 2 ^ 63) ↔
      (-(2 ^ 63) - 1 < q ∧ q < 2 ^ 63) := by
  rcases le_or_gt 0 q with hq | hq
  · rw [tdiv_pos q hq]
    have h0 : 0 ≤ q.floor := by
      rw [Rat.le_floor_iff]; exact_mod_cast hq
    constructor
    · rintro ⟨_, h2⟩
      rw [Rat.floor_lt_iff] at h2
      refine ⟨by linarith, by exact_mod_cast h2⟩
    · rintro ⟨_, h2⟩
      refine ⟨by omega, ?_⟩
      rw [Rat.floor_lt_iff]; exact_mod_cast h2
  · rw [tdiv_neg q hq]
    have h0 : q.ceil ≤ 0 := by
      rw [Rat.ceil_le_iff]; exact_mod_cast hq.le
    constructor
    · rintro ⟨h1, _⟩
      have h1' : -(2 ^ 63 : Int) - 1 < q.ceil := by omega
      rw [Rat.lt_ceil_iff] at h1'
      refine ⟨by push_cast at h1'; linarith, by linarith⟩
    · rintro ⟨h1, _⟩
      refine ⟨?_, by omega⟩
      have : -(2 ^ 63 : Int) - 1 < q.ceil := by
        rw [Rat.lt_ceil_iff]; push_cast; linarith
      omega

theorem integerEnumKey_scalar (i : Int) : (integerEnumKey i).isScalarVal = true ∧
    integerEnumKey i ≠ .float .nan := by
  unfold integerEnumKey
  split_ifs <;> simp [GoVal.isScalarVal]

theorem integerEnumKey_eq (i : Int) (h1 : -(2 ^ 63 : Int) ≤ i) (h2 : i < 2 ^ 64) :
    integerEnumKey i = if i < 2 ^ 63 then GoVal.int i else .uint i.toNat := by
  unfold integerEnumKey
  split_ifs <;> first | rfl | omega

/-- Verdict of an `Out Unit` against a proposition: nil exactly when it holds, an error otherwise. -/
def Decides (o : Out Unit) (P : Prop) : Prop := (o = .ok () ∧ P) ∨ ((∃ m, o = .err m) ∧ ¬ P)

theorem Decides.ok_iff {o : Out Unit} {P : Prop} (h : Decides o P) : o = .ok () ↔ P := by
  rcases h with ⟨h1, h2⟩ | ⟨⟨m, h1⟩, h2⟩ <;> simp_all

theorem Decides.err_iff {o : Out Unit} {P : Prop} (h : Decides o P) : (∃ m, o = .err m) ↔ ¬ P := by
  rcases h with ⟨h1, h2⟩ | ⟨⟨m, h1⟩, h2⟩ <;> simp_all

theorem Decides.congr {o : Out Unit} {P Q : Prop} (h : Decides o P) (hpq : P ↔ Q) : Decides o Q := by
  rcases h with ⟨h1, h2⟩ | ⟨h1, h2⟩
  · exact Or.inl ⟨h1, hpq.1 h2⟩
  · exact Or.inr ⟨h1, fun hq => h2 (hpq.2 hq)⟩

theorem decides_ite_err {b : Bool} {m : String} {o : Out Unit} {P Q : Prop}
    (hb : b = false ↔ P) (ho : Decides o Q) : Decides (if b then .err m else o) (P ∧ Q) := by
  cases b
  · have : P := hb.1 rfl
    simpa [this] using ho
  · right
    exact ⟨⟨m, rfl⟩, fun h => by simpa using hb.2 h.1⟩

theorem decides_ok : Decides (.ok ()) True := Or.inl ⟨rfl, trivial⟩

theorem decides_err {m : String} {P : Prop} (h : ¬ P) : Decides (.err m) P := Or.inr ⟨⟨m, rfl⟩, h⟩

theorem checkEnum_decides {x : GoVal} (hx : x.isScalarVal = true) (enum : Option (List GoVal)) :
    Decides (checkEnum enum x) (∀ es, enum = some es → x ∈ es ∧ x ≠ .float .nan) :=
  checkEnum_scalar hx enum

theorem bounds_decides {α : Type} (lt : α → α → Bool) (le : α → α → Prop)
    (hle : ∀ a b, lt b a = false ↔ le a b) (lo hi : Option α) (x : α) {m1 m2 : String}
    {o : Out Unit} {Q : Prop} (ho : Decides o Q) :
    Decides (if belowMin lt x lo then .err m1 else if aboveMax lt x hi then .err m2 else o)
      (Between le lo hi x ∧ Q) := by
  have h := decides_ite_err (b := belowMin lt x lo) (m := m1) Iff.rfl
    (decides_ite_err (b := aboveMax lt x hi) (m := m2) Iff.rfl ho)
  refine h.congr ?_
  rw [← and_assoc, inBounds_iff lt le hle]

theorem integer_decides (E : Ext) (f : IntegerF) (v : GoVal) (i : Int) (hi : integerOf E v = some i) :
    Decides (f.validate E v)
      (Between (· ≤ ·) f.minimum f.maximum i ∧ ∀ es, f.enum = some es → integerEnumKey i ∈ es) := by
  unfold IntegerF.validate
  rw [hi]
  refine bounds_decides intLt _ intLt_false _ _ _ ?_
  refine (checkEnum_decides (integerEnumKey_scalar i).1 f.enum).congr ?_
  simp [(integerEnumKey_scalar i).2]

theorem integerOf_value (E : Ext) {v : GoVal} (hr : InRange v) (i : Int) :
    integerOf E v = some i ↔ IntegerValue v i := by
  constructor
  · intro h
    cases v <;> simp [integerOf] at h
    · subst h; constructor
    · subst h; constructor
    · rename_i f
      cases f <;> simp [InRange] at hr
      rename_i q
      simp only [Ext.truncInt64] at h
      rw [if_pos ((trunc_range q).2 hr)] at h
      subst h
      rcases le_or_gt 0 q with hq | hq
      · rw [tdiv_pos q hq]; exact .floatPos q hq
      · rw [tdiv_neg q hq]; exact .floatNeg q hq
  · intro h
    cases h with
    | int z => rfl
    | uint n => rfl
    | floatPos q hq =>
      simp only [integerOf, Ext.truncInt64]
      rw [if_pos ((trunc_range q).2 hr), tdiv_pos q hq]
    | floatNeg q hq =>
      simp only [integerOf, Ext.truncInt64]
      rw [if_pos ((trunc_range q).2 hr), tdiv_neg q hq]

theorem Spec.IntegerValue.range {v : GoVal} {i : Int} (hr : InRange v) (h : IntegerValue v i) :
    -(2 ^ 63 : Int) ≤ i ∧ i < 2 ^ 64 := by
  cases h with
  | int z => simp [InRange] at hr; omega
  | uint n => simp [InRange] at hr; omega
  | floatPos q hq =>
    have := (trunc_range q).2 hr
    rw [tdiv_pos q hq] at this; omega
  | floatNeg q hq =>
    have := (trunc_range q).2 hr
    rw [tdiv_neg q hq] at this; omega

theorem Spec.IntegerValue.unique {v : GoVal} {i j : Int} (h : IntegerValue v i) (h' : IntegerValue v j) :
    i = j := by
  cases h <;> cases h' <;> first | rfl | (exfalso; linarith)

/-- Integer validation decides the specification (numbers of Go's int, uint, and floats fitting int64). -/
theorem integer_decides_spec (E : Ext) (f : IntegerF) (v : GoVal) (hr : InRange v) :
    Decides (f.validate E v) (IntegerOK f v) := by
  cases hi : integerOf E v with
  | none =>
    refine (show Decides (f.validate E v) (IntegerOK f v) from ?_)
    unfold IntegerF.validate
    rw [hi]
    refine decides_err ?_
    rintro ⟨i, h, _⟩
    have := (integerOf_value E hr i).2 h
    simp [hi] at this
  | some i =>
    have hv := (integerOf_value E hr i).1 hi
    have hrng := hv.range hr
    refine (integer_decides E f v i hi).congr ?_
    rw [integerEnumKey_eq i hrng.1 hrng.2]
    constructor
    · rintro ⟨h1, h2⟩
      exact ⟨i, hv, h1, h2⟩
    · rintro ⟨j, hj, h1, h2⟩
      obtain rfl := hj.unique hv
      exact ⟨h1, h2⟩

theorem bitvec_range (x : BitVec 64) : -(2 ^ 63 : Int) ≤ x.toInt ∧ x.toInt < 2 ^ 63 := by
  have h1 := BitVec.toInt_lt (x := x)
  have h2 := BitVec.le_toInt (x := x)
  simp at h1 h2
  omega

theorem integer_overflow (E : Ext) (f : IntegerF) (x : F64) (hr : ¬ InRange (.float x)) :
    f.validate E (.float x) = f.validate E (.int (E.truncOverflow x).toInt) := by
  have : integerOf E (.float x) = integerOf E (.int (E.truncOverflow x).toInt) := by
    cases x <;> simp [integerOf, Ext.truncInt64]
    rename_i q
    intro h1 h2
    exact absurd ((trunc_range q).1 ⟨h1, h2⟩) hr
  unfold IntegerF.validate
  rw [this]

/-- Integer validation decides the specification for every Go value. -/
theorem integer_decides_full (E : Ext) (f : IntegerF) (v : GoVal) (hv : GoValue v) :
    Decides (f.validate E v)
      ((InRange v ∧ IntegerOK f v) ∨
        (¬ InRange v ∧ ∃ x, v = .float x ∧ IntegerOK f (.int (E.truncOverflow x).toInt))) := by
  by_cases hr : InRange v
  · refine (integer_decides_spec E f v hr).congr ?_
    simp [hr]
  · have : ∃ x, v = .float x := by
      cases hv <;> simp_all [InRange]
    obtain ⟨x, rfl⟩ := this
    rw [integer_overflow E f x hr]
    refine (integer_decides_spec E f (.int (E.truncOverflow x).toInt) (bitvec_range _)).congr ?_
    simp [hr]

theorem number_decides (E : Ext) (f : NumberF) (v : GoVal) :
    Decides (f.validate E v) (NumberOK E.toF64 f v) := by
  unfold NumberF.validate
  have hkey : ∀ x, Decides
      (if belowMin F64.lt x f.minimum then .err "value must be greater than"
        else if aboveMax F64.lt x f.maximum then .err "value must be less than"
        else checkEnum f.enum (.float x))
      (Between (fun a b => ¬ FloatLt b a) f.minimum f.maximum x ∧
        ∀ es, f.enum = some es → x ≠ .nan ∧ .float x ∈ es) := by
    intro x
    refine bounds_decides F64.lt _ f64Lt_false _ _ _ ?_
    refine (checkEnum_decides (by rfl) f.enum).congr ?_
    simp [and_comm]
  cases v with
  | int z =>
    refine (hkey (E.toF64 z)).congr ⟨fun h => ⟨_, .int z, h⟩, ?_⟩
    rintro ⟨x, hx, h⟩; cases hx; exact h
  | uint z =>
    refine (hkey (E.toF64 z)).congr ⟨fun h => ⟨_, .uint z, h⟩, ?_⟩
    rintro ⟨x, hx, h⟩; cases hx; exact h
  | float z =>
    refine (hkey z).congr ⟨fun h => ⟨_, .float z, h⟩, ?_⟩
    rintro ⟨x, hx, h⟩; cases hx; exact h
  | _ =>
    refine decides_err ?_
    rintro ⟨x, hx, _⟩
    cases hx

theorem string_decides (E : Ext) (f : StringF) (v : GoVal) :
    Decides (f.validate E v) (StringOK E.reMatch f v) := by
  cases v with
  | str s =>
    simp only [StringF.validate]
    have h : Decides
        (if (match f.pattern with | some p => !E.reMatch p s | none => false)
          then .err "must match pattern" else checkEnum f.enum (.str s))
        ((∀ p, f.pattern = some p → E.reMatch p s = true) ∧ (∀ es, f.enum = some es → .str s ∈ es)) := by
      refine decides_ite_err ?_ ((checkEnum_decides (by rfl) f.enum).congr (by simp))
      cases f.pattern <;> simp
    refine (bounds_decides natLt (· ≤ ·) natLt_false f.minLength f.maxLength s.utf8ByteSize h).congr ?_
    constructor
    · intro h; exact ⟨s, rfl, h⟩
    · rintro ⟨s', hs, h⟩
      cases hs; exact h
  | _ =>
    refine decides_err ?_
    rintro ⟨x, hx, _⟩
    cases hx

theorem file_decides (f : FileF) (v : GoVal) : Decides (f.validate v) (FileOK f v) := by
  cases v with
  | str s =>
    simp only [FileF.validate]
    refine (bounds_decides natLt (· ≤ ·) natLt_false f.minLength f.maxLength s.utf8ByteSize
      decides_ok).congr ?_
    constructor
    · intro h; exact ⟨s, rfl, h.1⟩
    · rintro ⟨s', hs, h⟩
      cases hs; exact ⟨h, trivial⟩
  | _ =>
    refine decides_err ?_
    rintro ⟨x, hx, _⟩
    cases hx

theorem boolean_decides (enum : Option (List GoVal)) (v : GoVal) :
    Decides (booleanValidate enum v) (BooleanOK enum v) := by
  cases v with
  | bool b =>
    refine (checkEnum_decides (x := .bool b) (by rfl) enum).congr ?_
    constructor
    · intro h; exact ⟨b, rfl, fun es he => (h es he).1⟩
    · rintro ⟨b', hb, h⟩ es he
      cases hb; exact ⟨h es he, by simp⟩
  | _ =>
    refine decides_err ?_
    rintro ⟨x, hx, _⟩
    cases hx

theorem time_decides (E : Ext) (layout : String) (v : GoVal) :
    Decides (timeValidate E layout v) (TimeOK E.timeParse layout v) := by
  cases v with
  | str s =>
    simp only [timeValidate]
    cases hp : E.timeParse layout s
    · refine decides_err ?_
      rintro ⟨s', hs, h⟩; cases hs; simp [hp] at h
    · exact Or.inl ⟨by simp, s, rfl, hp⟩
  | _ =>
    refine decides_err ?_
    rintro ⟨x, hx, _⟩
    cases hx

theorem dateTime_decides (E : Ext) (fmt : Option String) (v : GoVal) :
    Decides (dateTimeValidate E fmt v) (DateTimeOK E.timeParse fmt v) := by
  cases fmt with
  | none =>
    have := time_decides E layoutRFC3339 v
    cases v <;> exact this
  | some f =>
    by_cases h1 : f = "rfc3339"
    · subst h1
      have := time_decides E layoutRFC3339 v
      cases v <;> simpa [dateTimeValidate, timeValidate, DateTimeOK, layoutRFC3339, layoutRFC2616] using this
    · by_cases h2 : f = "rfc2616"
      · subst h2
        have := time_decides E layoutRFC2616 v
        cases v <;> simpa [dateTimeValidate, timeValidate, DateTimeOK, layoutRFC3339, layoutRFC2616] using this
      · have : DateTimeOK E.timeParse (some f) v ↔ ∃ s, v = .str s := by
          unfold DateTimeOK
          split <;> simp_all
        refine Decides.congr ?_ this.symm
        cases v <;> simp [dateTimeValidate, h1, h2] <;>
          first | exact decides_ok | exact decides_err not_false

theorem nil_decides (v : GoVal) : Decides (nilValidate v) (v = .nil) := by
  cases v <;> first | exact Or.inl ⟨rfl, rfl⟩ | exact decides_err (by simp)

end GoRaml
