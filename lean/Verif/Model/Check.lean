import Verif.Model.Validate

/-!
# Checking of type definitions (`check` methods, shape.go:379-381)

`check E h n a` is the call `base.Check()` for the base at `a`, cut off after `n` nested calls.  The heap is not changed.
-/

namespace GoRaml

/-- `IsScalar`: `scalarShape` is embedded by the shapes of scalars.go (66-70), `noScalarShape` by those of complex.go
(17-21).  Any and nil count as scalars. -/
def Shape.isScalar : Shape → Bool
  | .object _ => false
  | .array _ => false
  | .union _ _ => false
  | .json _ _ => false
  | .unknown _ => false
  | .recursive _ => false
  | _ => true

/-- complex.go:634-654 `checkPatternProperties`. -/
def checkPatternProperties (rec : Addr → Out Unit) (h : St) (f : ObjectF) : Out Unit :=
  match f.patternProperties with
  | none => .ok ()
  | some i =>
    if f.additionalProperties == some false then .err "pattern properties are not allowed"
    else Out.forEach (fun pp => rec pp.2.base) (h.patProps (some i))

/-- complex.go:673-695: the discriminator part of `checkProperties`.  Validation of a scalar makes no nested calls. -/
def checkDiscriminator (E : Ext) (h : St) (f : ObjectF) (ps : OMap Property) : Out Unit :=
  match f.discriminator with
  | none => .ok ()
  | some d =>
    match OMap.get ps d with
    | none => .err "discriminator property not found"
    | some p =>
      match h.shapeAt p.base with
      | none => .panic "nil pointer dereference"
      | some s =>
        if !s.isScalar then .err "discriminator property must be a scalar"
        else match f.discriminatorValue with
          | .nil => .ok ()
          | v => validate E h 1 p.base v

/-- complex.go:656-698 `checkProperties`. -/
def checkProperties (E : Ext) (rec : Addr → Out Unit) (h : St) (f : ObjectF) : Out Unit :=
  match f.properties with
  | none => .ok ()
  | some i =>
    (Out.forEach (fun p => rec p.2.base) (h.props (some i))).bind fun _ =>
    checkDiscriminator E h f (h.props (some i))

/-- complex.go:698-714 `ObjectShape.check`. -/
def objectCheck (E : Ext) (rec : Addr → Out Unit) (h : St) (f : ObjectF) : Out Unit :=
  if boundsCrossed natLt f.minProperties f.maxProperties then .err "minProperties must be less than or equal to maxProperties"
  else
    (checkPatternProperties rec h f).bind fun _ =>
    (checkProperties E rec h f).bind fun _ =>
    if f.discriminator.isSome && f.properties.isNone then .err "discriminator without properties" else .ok ()

/-- complex.go:163-175 `ArrayShape.check`. -/
def arrayCheck (rec : Addr → Out Unit) (f : ArrayF) : Out Unit :=
  if boundsCrossed natLt f.minItems f.maxItems then .err "minItems must be less than or equal to maxItems"
  else match f.items with
    | none => .ok ()
    | some i => rec i

/-- `Shape.check` by dynamic type: scalars.go:204, 422, 603, 757, 886; union complex.go:914-922; unknown
complex.go:1032-1034; the remaining shapes always pass (scalars.go:999, 1082, 1155, 1228, 1293, 1361, complex.go:985, 1108). -/
def checkShape (E : Ext) (rec : Addr → Out Unit) (h : St) : Shape → Out Unit
  | .integer f => f.check
  | .number f => f.check
  | .string f => f.check
  | .file f => f.check
  | .boolean e => booleanCheck e
  | .array f => arrayCheck rec f
  | .object f => objectCheck E rec h f
  | .union l _ => Out.forEach rec (h.slice l)
  | .unknown _ => .err "cannot check unknown shape"
  | _ => .ok ()

/-- shape.go:379-381 `BaseShape.Check`; a nil `Shape` is a nil dereference. -/
def check (E : Ext) (h : St) : Nat → Addr → Out Unit
  | 0, _ => .diverge
  | n + 1, a =>
    match h.shapeAt a with
    | none => .panic "nil pointer dereference"
    | some s => checkShape E (check E h n) h s

end GoRaml
