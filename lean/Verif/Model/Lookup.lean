import Verif.Model.Names

/-!
# Reference lookup and registries (fragment.go:63-127, 281-323, raml.go:152-233)
-/

namespace GoRaml

/-- fragment.go:76-88, 112-124, 280-290, 307-317: the lookup of `after` in the library used as `before`; `sel` selects `Types` or
`AnnotationTypes`.  A library that failed to load has a nil `Link`, which is dereferenced. -/
def lookupUsed (h : St) (uses : OMap (String × Option Nat)) (sel : Lib → OMap Addr) (before after : String) : Out Addr :=
  match OMap.get uses before with
  | none => .err "library not found"
  | some (_, link) =>
    match link.bind fun i => h.libs[i]? with
    | none => .panic "nil pointer dereference"
    | some lib =>
      match OMap.get (sel lib) after with
      | none => .err "reference not found"
      | some r => .ok r

/-- fragment.go:63-93 `Library.GetReferenceType` (`sel := Lib.types`) and fragment.go:97-127
`Library.GetReferenceAnnotationType` (`sel := Lib.annotationTypes`), which are the same code. -/
def Lib.getReference (h : St) (l : Lib) (sel : Lib → OMap Addr) (refName : String) : Out Addr :=
  let (before, after, found) := cutReferenceName refName
  if !found then
    match OMap.get (sel l) refName with
    | none => .err "reference not found"
    | some r => .ok r
  else
    match OMap.get (sel l) refName with
    | some r => .ok r
    | none => lookupUsed h l.uses sel before after

/-- fragment.go:281-300 `DataType.GetReferenceType` and 304-323 `DataType.GetReferenceAnnotationType`. -/
def DT.getReference (h : St) (d : DT) (sel : Lib → OMap Addr) (refName : String) : Out Addr :=
  let (before, after, found) := cutReferenceName refName
  if !found then .err "invalid reference" else lookupUsed h d.uses sel before after

/-- raml.go:200-202 `GetFragment`. -/
def getFragment (h : St) (location : String) : Option FragRef := OMap.get h.fragments location

/-- raml.go:205-209 `PutFragment`: the first registration of a location stays.  (The Go map is not ordered; only `Get` is
used here.) -/
def putFragment (location : String) (f : FragRef) : M St Unit := fun h =>
  match OMap.get h.fragments location with
  | some _ => (.ok (), h)
  | none => (.ok (), { h with fragments := OMap.set h.fragments location f })

/-- raml.go:162-168 `GetTypeFromFragmentPtr` and 181-187 `GetAnnotationTypeFromFragmentPtr`: an error if nothing was stored
for the location; `none` is the nil that a missing name yields. -/
def getTypeFrom (m : OMap (OMap Addr)) (location typeName : String) : Out (Option Addr) :=
  match OMap.get m location with
  | none => .err "location not found"
  | some loc => .ok (OMap.get loc typeName)

/-- raml.go:171-178 `PutTypeIntoFragment` and 190-197 `PutAnnotationTypeIntoFragment`. -/
def putTypeInto (m : OMap (OMap Addr)) (name location : String) (a : Addr) : OMap (OMap Addr) :=
  OMap.set m location (OMap.set ((OMap.get m location).getD []) name a)

/-- raml.go:211-221 `GetReferencedType` (`sel := Lib.types`), 223-233 `GetReferencedAnnotationType`. -/
def getReferenced (h : St) (sel : Lib → OMap Addr) (refName location : String) : Out Addr :=
  match getFragment h location with
  | none => .err "fragment not found"
  | some (.library i) =>
    match h.libs[i]? with
    | none => .panic "nil pointer dereference"
    | some l => l.getReference h sel refName
  | some (.dataType i) =>
    match h.dts[i]? with
    | none => .panic "nil pointer dereference"
    | some d => d.getReference h sel refName
  | some (.namedExample _) => .err "named example does not have references"

end GoRaml
