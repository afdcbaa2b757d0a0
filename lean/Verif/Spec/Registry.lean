import Verif.Model.Lookup

/-!
# Specification of the registries (C37): what a history of registrations stores
-/

namespace GoRaml.Spec

open GoRaml

/-- A registration. -/
inductive RegOp where
  | fragment (location : String) (f : FragRef)
  | type (name location : String) (a : Addr)
  | annotationType (name location : String) (a : Addr)

/-- The fragment a registration offers for a location. -/
def RegOp.fragmentAt (loc : String) : RegOp → Option FragRef
  | .fragment l f => if l = loc then some f else none
  | _ => none

/-- The type a registration stores for a location and name. -/
def RegOp.typeAt (loc name : String) : RegOp → Option Addr
  | .type n l a => if l = loc ∧ n = name then some a else none
  | _ => none

/-- The annotation type a registration stores for a location and name. -/
def RegOp.annotationTypeAt (loc name : String) : RegOp → Option Addr
  | .annotationType n l a => if l = loc ∧ n = name then some a else none
  | _ => none

/-- The first fragment of a history for a location. -/
def firstFragment (ops : List RegOp) (loc : String) : Option FragRef := ops.findSome? (RegOp.fragmentAt loc)

/-- The last type of a history for a location and name. -/
def lastType (ops : List RegOp) (loc name : String) : Option Addr := ops.reverse.findSome? (RegOp.typeAt loc name)

/-- The last annotation type of a history for a location and name. -/
def lastAnnotationType (ops : List RegOp) (loc name : String) : Option Addr :=
  ops.reverse.findSome? (RegOp.annotationTypeAt loc name)

end GoRaml.Spec
