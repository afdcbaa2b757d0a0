import Verif.Model.Heap

/-!
# Scalar shapes: validate, inherit, check, alias (scalars.go)

The four methods of each scalar shape depend only on the shape's own facets, so they are modelled
as pure functions on the facet records.

Simplification for every `inherit`: when the Go method returns an error it may already have
assigned some facets of the receiver; the model keeps the receiver unchanged then.  Every caller
either gives up on the whole operation or throws the receiver away (detached clones in
shape.go:203-217 and complex.go:890-901).
-/

namespace GoRaml

/-- The loop `for _, e := range s.Enum { if e.Value == x { found = true; break } }`
(scalars.go:142-147, 360-365, 550-555, 857-862). -/
def enumHas (x : GoVal) : List GoVal → Out Bool
  | [] => .ok false
  | e :: es => (GoVal.goEq e x).bind fun b => if b then .ok true else enumHas x es

/-- scalars.go:39-54 `isCompatibleEnum(source, target)`: every target value occurs in source. -/
def isCompatibleEnum (source : List GoVal) : List GoVal → Out Bool
  | [] => .ok true
  | v :: vs =>
    (enumHas v source).bind fun found => if found then isCompatibleEnum source vs else .ok false

/-- The enum part of `validate`: `if s.Enum != nil { … if !found { return error } }`. -/
def checkEnum (enum : Option (List GoVal)) (x : GoVal) : Out Unit :=
  match enum with
  | none => .ok ()
  | some es => (enumHas x es).bind fun b => if b then .ok () else .err "value must be one of"

/-- The enum part of `inherit`: `if s.Enum == nil { s.Enum = ss.Enum } else if ss.Enum != nil &&
!isCompatibleEnum(ss.Enum, s.Enum) { return error }` (e.g. scalars.go:185-192). -/
def inheritEnum (target source : Option (List GoVal)) : Out (Option (List GoVal)) :=
  match target, source with
  | none, s => .ok s
  | some t, none => .ok (some t)
  | some t, some s =>
    (isCompatibleEnum s t).bind fun b => if b then .ok (some t) else .err "enum constraint violation"

/-- Lower bound: take the source's if unset, error if the target's is below the source's. -/
def inheritLower {α : Type} (lt : α → α → Bool) (target source : Option α) : Out (Option α) :=
  match target, source with
  | none, s => .ok s
  | some t, none => .ok (some t)
  | some t, some s => if lt t s then .err "lower bound constraint violation" else .ok (some t)

/-- Upper bound: take the source's if unset, error if the target's is above the source's. -/
def inheritUpper {α : Type} (lt : α → α → Bool) (target source : Option α) : Out (Option α) :=
  match target, source with
  | none, s => .ok s
  | some t, none => .ok (some t)
  | some t, some s => if lt s t then .err "upper bound constraint violation" else .ok (some t)

/-- `low != nil && high != nil && low > high` of the `check` methods. -/
def boundsCrossed {α : Type} (lt : α → α → Bool) (low high : Option α) : Bool :=
  match low, high with
  | some a, some b => lt b a
  | _, _ => false

/-- Lower-bound part of `validate`: `s.Min != nil && val < *s.Min`. -/
def belowMin {α : Type} (lt : α → α → Bool) (x : α) (low : Option α) : Bool :=
  match low with
  | some a => lt x a
  | none => false

/-- Upper-bound part of `validate`: `s.Max != nil && val > *s.Max`. -/
def aboveMax {α : Type} (lt : α → α → Bool) (x : α) (high : Option α) : Bool :=
  match high with
  | some a => lt a x
  | none => false

/-- `<` on `int64`/`big.Int`. -/
def intLt (a b : Int) : Bool := decide (a < b)

/-- `<` on `uint64`. -/
def natLt (a b : Nat) : Bool := decide (a < b)

/-! ## Integer -/

/-- scalars.go:112-122: conversion of the input to a `big.Int`; `none` is the type error. -/
def integerOf (E : Ext) : GoVal → Option Int
  | .int i => some i
  | .uint n => some n
  | .float f => some (E.truncInt64 f)
  | _ => none

/-- scalars.go:135-140: the `any` that is compared with enum values. -/
def integerEnumKey (i : Int) : GoVal :=
  if -(2 ^ 63 : Int) ≤ i ∧ i < 2 ^ 63 then .int i
  else if 0 ≤ i ∧ i < 2 ^ 64 then .uint i.toNat
  else .nil

/-- scalars.go:111-154 `IntegerShape.validate`. -/
def IntegerF.validate (E : Ext) (s : IntegerF) (v : GoVal) : Out Unit :=
  match integerOf E v with
  | none => .err "invalid type"
  | some i =>
    if belowMin intLt i s.minimum then .err "value must be greater than"
    else if aboveMax intLt i s.maximum then .err "value must be less than"
    else checkEnum s.enum (integerEnumKey i)

/-- consts.go `SetOfIntegerFormats`: `none` when the key is absent. -/
def integerFormatClass : String → Option Int
  | "int8" => some 0
  | "int16" => some 1
  | "int32" => some 2
  | "int" => some 2
  | "int64" => some 3
  | "long" => some 3
  | _ => none

/-- scalars.go:193-200: format part of `IntegerShape.inherit`.  A missing key of a Go map reads as 0. -/
def inheritIntegerFormat (target source : Option String) : Out (Option String) :=
  match target, source with
  | none, s => .ok s
  | some t, none => .ok (some t)
  | some t, some s =>
    if (integerFormatClass t).getD 0 ≠ (integerFormatClass s).getD 0
    then .err "format constraint violation" else .ok (some t)

/-- scalars.go:156-202 `IntegerShape.inherit` on the facets. -/
def IntegerF.inherit (s ss : IntegerF) : Out IntegerF :=
  (inheritLower intLt s.minimum ss.minimum).bind fun minimum =>
  (inheritUpper intLt s.maximum ss.maximum).bind fun maximum =>
  let multipleOf := match s.multipleOf with | none => ss.multipleOf | some m => some m
  (inheritEnum s.enum ss.enum).bind fun enum =>
  (inheritIntegerFormat s.format ss.format).bind fun format =>
  .ok { minimum, maximum, multipleOf, format, enum }

/-- scalars.go:209-217: `case int, uint`. -/
def isIntegerEnumValue : GoVal → Bool
  | .int _ => true
  | .uint _ => true
  | _ => false

/-- scalars.go:204-226 `IntegerShape.check`. -/
def IntegerF.check (s : IntegerF) : Out Unit :=
  if boundsCrossed intLt s.minimum s.maximum then .err "minimum must be less than or equal to maximum"
  else if (match s.enum with | some es => !es.all isIntegerEnumValue | none => false)
  then .err "enum value must be int or uint"
  else match s.format with
    | some f => if (integerFormatClass f).isSome then .ok () else .err "invalid format"
    | none => .ok ()

/-! ## Number -/

/-- scalars.go:337-348: conversion of the input to `float64`; `none` is the type error. -/
def numberOf (E : Ext) : GoVal → Option F64
  | .int i => some (E.toF64 i)
  | .uint n => some (E.toF64 n)
  | .float f => some f
  | _ => none

/-- scalars.go:336-372 `NumberShape.validate`. -/
def NumberF.validate (E : Ext) (s : NumberF) (v : GoVal) : Out Unit :=
  match numberOf E v with
  | none => .err "invalid type"
  | some x =>
    if belowMin F64.lt x s.minimum then .err "value must be greater than"
    else if aboveMax F64.lt x s.maximum then .err "value must be less than"
    else checkEnum s.enum (.float x)

/-- `if s.Format == nil { … } else if ss.Format != nil && *s.Format != *ss.Format { error }`
(scalars.go:411-418, 988-995). -/
def inheritFormat (target source : Option String) : Out (Option String) :=
  match target, source with
  | none, s => .ok s
  | some t, none => .ok (some t)
  | some t, some s => if t ≠ s then .err "format constraint violation" else .ok (some t)

/-- scalars.go:374-420 `NumberShape.inherit` on the facets.  Note that a `multipleOf` of the source
replaces the target's (scalars.go:399-402). -/
def NumberF.inherit (s ss : NumberF) : Out NumberF :=
  (inheritLower F64.lt s.minimum ss.minimum).bind fun minimum =>
  (inheritUpper F64.lt s.maximum ss.maximum).bind fun maximum =>
  let multipleOf := match ss.multipleOf with | some m => some m | none => s.multipleOf
  (inheritEnum s.enum ss.enum).bind fun enum =>
  (inheritFormat s.format ss.format).bind fun format =>
  .ok { minimum, maximum, multipleOf, format, enum }

/-- scalars.go:427-436: `case int, uint, float64`. -/
def isNumberEnumValue : GoVal → Bool
  | .int _ => true
  | .uint _ => true
  | .float _ => true
  | _ => false

/-- scalars.go:422-438 `NumberShape.check`. -/
def NumberF.check (s : NumberF) : Out Unit :=
  if boundsCrossed F64.lt s.minimum s.maximum then .err "minimum must be less than or equal to maximum"
  else if (match s.enum with | some es => !es.all isNumberEnumValue | none => false)
  then .err "enum value must be int, uint, float64"
  else .ok ()

/-! ## String -/

/-- scalars.go:532-562 `StringShape.validate`.  `len(i)` counts bytes. -/
def StringF.validate (E : Ext) (s : StringF) (v : GoVal) : Out Unit :=
  match v with
  | .str i =>
    if belowMin natLt i.utf8ByteSize s.minLength then .err "length must be greater than"
    else if aboveMax natLt i.utf8ByteSize s.maxLength then .err "length must be less than"
    else if (match s.pattern with | some p => !E.reMatch p i | none => false)
    then .err "must match pattern"
    else checkEnum s.enum (.str i)
  | _ => .err "invalid type"

/-- scalars.go:564-601 `StringShape.inherit` on the facets. -/
def StringF.inherit (s ss : StringF) : Out StringF :=
  (inheritLower natLt s.minLength ss.minLength).bind fun minLength =>
  (inheritUpper natLt s.maxLength ss.maxLength).bind fun maxLength =>
  let pattern := match s.pattern with | none => ss.pattern | some p => some p
  (inheritEnum s.enum ss.enum).bind fun enum =>
  .ok { minLength, maxLength, pattern, enum }

/-- `_, ok := e.Value.(string)`. -/
def isStr : GoVal → Bool
  | .str _ => true
  | _ => false

/-- scalars.go:603-617 `StringShape.check`. -/
def StringF.check (s : StringF) : Out Unit :=
  if boundsCrossed natLt s.minLength s.maxLength then .err "minLength must be less than or equal to maxLength"
  else if (match s.enum with | some es => !es.all isStr | none => false)
  then .err "enum value must be string"
  else .ok ()

/-! ## File -/

/-- scalars.go:703-720 `FileShape.validate`. -/
def FileF.validate (s : FileF) (v : GoVal) : Out Unit :=
  match v with
  | .str i =>
    if belowMin natLt i.utf8ByteSize s.minLength then .err "length must be greater than"
    else if aboveMax natLt i.utf8ByteSize s.maxLength then .err "length must be less than"
    else .ok ()
  | _ => .err "invalid type"

/-- scalars.go:722-755 `FileShape.inherit` on the facets. -/
def FileF.inherit (s ss : FileF) : Out FileF :=
  (inheritLower natLt s.minLength ss.minLength).bind fun minLength =>
  (inheritUpper natLt s.maxLength ss.maxLength).bind fun maxLength =>
  (inheritEnum s.fileTypes ss.fileTypes).bind fun fileTypes =>
  .ok { minLength, maxLength, fileTypes }

/-- scalars.go:757-771 `FileShape.check`. -/
def FileF.check (s : FileF) : Out Unit :=
  if boundsCrossed natLt s.minLength s.maxLength then .err "minLength must be less than or equal to maxLength"
  else if (match s.fileTypes with | some es => !es.all isStr | none => false)
  then .err "file type must be string"
  else .ok ()

/-! ## Boolean, dates, nil -/

/-- scalars.go:849-869 `BooleanShape.validate`. -/
def booleanValidate (enum : Option (List GoVal)) (v : GoVal) : Out Unit :=
  match v with
  | .bool b => checkEnum enum (.bool b)
  | _ => .err "invalid type"

/-- `_, ok := e.Value.(bool)`. -/
def isBool : GoVal → Bool
  | .bool _ => true
  | _ => false

/-- scalars.go:886-895 `BooleanShape.check`. -/
def booleanCheck (enum : Option (List GoVal)) : Out Unit :=
  if (match enum with | some es => !es.all isBool | none => false)
  then .err "enum value must be boolean" else .ok ()

/-- `time.RFC3339`. -/
def layoutRFC3339 : String := "2006-01-02T15:04:05Z07:00"
/-- scalars.go:15 `RFC2616`. -/
def layoutRFC2616 : String := "Mon, 02 Jan 2006 15:04:05 GMT"
/-- scalars.go:17 `DateTime`. -/
def layoutDateTime : String := "2006-01-02T15:04:05"
/-- `time.DateOnly`. -/
def layoutDateOnly : String := "2006-01-02"
/-- `time.TimeOnly`. -/
def layoutTimeOnly : String := "15:04:05"

/-- `i, ok := v.(string)` followed by `time.Parse(layout, i)`. -/
def timeValidate (E : Ext) (layout : String) (v : GoVal) : Out Unit :=
  match v with
  | .str s => if E.timeParse layout s then .ok () else .err "value must match format"
  | _ => .err "invalid type"

/-- scalars.go:956-981 `DateTimeShape.validate`.  A format other than the two known ones accepts every
string; `DateTimeShape.unmarshalYAMLNodes` admits only the two (scalars.go:1011-1014). -/
def dateTimeValidate (E : Ext) (format : Option String) (v : GoVal) : Out Unit :=
  match v with
  | .str s =>
    match format with
    | none => if E.timeParse layoutRFC3339 s then .ok () else .err "value must match format"
    | some f =>
      if f = "rfc3339" then
        if E.timeParse layoutRFC3339 s then .ok () else .err "value must match format"
      else if f = "rfc2616" then
        if E.timeParse layoutRFC2616 s then .ok () else .err "value must match format"
      else .ok ()
  | _ => .err "invalid type"

/-- scalars.go:1345-1350 `NilShape.validate`. -/
def nilValidate (v : GoVal) : Out Unit :=
  match v with
  | .nil => .ok ()
  | _ => .err "invalid type"

end GoRaml
