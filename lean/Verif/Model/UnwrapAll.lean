import Verif.Model.Parse

/-!
# Unwrapping a whole model and parsing with options (unwrap.go:10-169, parse.go:306-411)

`frags` and `frags'` are the orders in which the two loops `range r.fragmentsCache` visit the fragments.  Hooks are left out.
-/

namespace GoRaml

/-- The maps of a library that hold types. -/
inductive Sect where
  | types
  | annotationTypes
  deriving DecidableEq

/-- The entries of a section. -/
def Sect.of (c : Sect) (l : Lib) : OMap Addr :=
  match c with
  | .types => l.types
  | .annotationTypes => l.annotationTypes

/-- `types.Set(key, us)` for the map of the library at `i`. -/
def setType (c : Sect) (i : Nat) (key : String) (us : Addr) : M St Unit :=
  M.modify fun h => { h with libs := h.libs.modify i fun l =>
    match c with
    | .types => { l with types := OMap.set l.types key us }
    | .annotationTypes => { l with annotationTypes := OMap.set l.annotationTypes key us } }

/-- unwrap.go:17-44: one type of the library at `i`.  (The types of a library are never nil.) -/
def unwrapType (n : Nat) (c : Sect) (i : Nat) (location : String) (ka : String × Addr) : M St Unit :=
  M.bind (unwrap n ka.2) fun us =>
  M.bind (setType c i ka.1 us) fun _ =>
  M.bind (Heap.getBase us) fun u =>
  match c with
  | .types => Heap.putType u.name location ka.2
  | .annotationTypes => Heap.putAnnotationType u.name location ka.2

/-- unwrap.go:10-47 `unwrapTypes`: errors are collected.  No entry is added during the loop, and an entry is changed only when the loop is at it. -/
def unwrapTypes (n : Nat) (c : Sect) (i : Nat) (l : Lib) : M St Unit := M.tryEach (unwrapType n c i l.location) (c.of l)

/-- unwrap.go:49-60 `unwrapLibrary`. -/
def unwrapLibrary (n : Nat) (i : Nat) (l : Lib) : M St Unit :=
  M.tryBoth (unwrapTypes n .annotationTypes i l) (unwrapTypes n .types i l)

/-- unwrap.go:62-75 `unwrapDataType`. -/
def unwrapDataType (n : Nat) (i : Nat) (d : DT) : M St Unit :=
  match d.shape with
  | none => M.err "shape is nil"
  | some a =>
    M.bind (unwrap n a) fun us =>
    M.bind (M.modify fun h => { h with dts := h.dts.modify i fun d => { d with shape := some us } }) fun _ =>
    M.bind (Heap.getBase us) fun u => Heap.putType u.name d.location us

/-- unwrap.go:80-100: one fragment. -/
def unwrapFragment (n : Nat) (f : FragRef) : M St Unit := fun h =>
  match f with
  | .library i =>
    match h.libs[i]? with
    | none => (.panic "nil pointer dereference", h)
    | some l => unwrapLibrary n i l h
  | .dataType i =>
    match h.dts[i]? with
    | none => (.panic "nil pointer dereference", h)
    | some d => unwrapDataType n i d h
  | .namedExample _ => (.ok (), h)

/-- unwrap.go:77-103 `unwrapFragments`. -/
def unwrapFragments (n : Nat) (frags : List FragRef) : M St Unit := M.tryEach (unwrapFragment n) frags

/-- unwrap.go:147-170: one fragment.  The first error ends it; the recursive shape that marking may return is dropped. -/
def markFragment (n : Nat) (f : FragRef) : M St Unit := fun h =>
  match f with
  | .library i =>
    match h.libs[i]? with
    | none => (.panic "nil pointer dereference", h)
    | some l => M.forEach (fun ka => M.bind (mark n ka.2) fun _ => M.ret ()) (l.annotationTypes ++ l.types) h
  | .dataType i =>
    match (h.dts[i]?).bind (·.shape) with
    | none => (.panic "nil pointer dereference", h)
    | some a => M.bind (mark n a) (fun _ => M.ret ()) h
  | .namedExample _ => (.ok (), h)

/-- unwrap.go:147-170 `markShapeRecursions`. -/
def markFragments (n : Nat) (frags : List FragRef) : M St Unit := M.forEach (markFragment n) frags

/-- unwrap.go:107-120: the annotation at index `i` gets the type stored for the name and the location of its annotation type; nil if there is none of
that name. -/
def unwrapDomainExtension (i : Nat) : M St Unit := fun h =>
  match (h.domainExts[i]?).bind fun d => d.definedBy.bind h.base with
  | none => (.panic "nil pointer dereference", h)
  | some db =>
    (M.bind (M.lift (getTypeFrom h.fragAnnotationTypes db.location db.name)) fun ptr =>
    M.modify fun h => { h with domainExts := h.domainExts.modify i fun d => { d with definedBy := ptr } }) h

/-- unwrap.go:104-122 `unwrapDomainExtensions`. -/
def unwrapDomainExtensions : M St Unit := fun h => M.tryEach unwrapDomainExtension (List.range h.domainExts.length) h

/-- unwrap.go:125-144 `UnwrapShapes`. -/
def unwrapShapes (n : Nat) (frags frags' : List FragRef) : M St Unit :=
  M.bind (M.modify fun h => { h with fragTypes := [], fragAnnotationTypes := [], shapes := [] }) fun _ =>
  M.bind (unwrapFragments n frags) fun _ =>
  M.bind (markFragments n frags') fun _ => unwrapDomainExtensions

/-- parse.go:446-449 `parserOptions`. -/
structure ParseOpts where
  withUnwrap : Bool := false
  withValidate : Bool := false

/-- The orders in which the code ranges over Go maps: the fragments (in `UnwrapShapes`, twice, and in `ValidateShapes`), each as a function of the
cache, and the facet declarations in `ValidateShapes`. -/
structure Orders where
  unwrap : OMap FragRef → List FragRef := List.map (·.2)
  mark : OMap FragRef → List FragRef := List.map (·.2)
  validate : OMap FragRef → List FragRef := List.map (·.2)
  facets : OMap Property → OMap Property := id

/-- parse.go:394-410: the end of `parseFragment`. -/
def finishParse (E : Env) (ord : Orders) (n : Nat) (o : ParseOpts) : M St Unit :=
  M.bind (if o.withUnwrap then fun h => unwrapShapes n (ord.unwrap h.fragments) (ord.mark h.fragments) h else M.ret ()) fun _ =>
  if o.withValidate then fun h => validateShapes E.toExt ord.facets (ord.validate h.fragments) n h else M.ret ()

/-- parse.go:306-329, 342-411 `ParseFromPath` with options. -/
def parseWith (E : Env) (ord : Orders) (n m : Nat) (path : String) (o : ParseOpts) : M St FragRef :=
  M.bind (parseFromPath E n m path) fun f => M.bind (finishParse E ord n o) fun _ => M.ret f

/-- `filepath.IsAbs` on Unix. -/
def isAbsPath (p : String) : Bool := p.toList.head? == some '/'

/-- parse.go:331-340, 426-444 `ParseFromString`: the text is given, and the path it would have.  `filepath.Join(baseDir, fileName)` is written as the path
of `fileName` next to the (empty) file `baseDir/`. -/
def parseStringWith (E : Env) (ord : Orders) (n m : Nat) (content fileName baseDir : String) (o : ParseOpts) : M St FragRef :=
  if isAbsPath baseDir then
    M.bind (parseFragment E n m content (E.joinDir (baseDir ++ "/") fileName)) fun f => M.bind (finishParse E ord n o) fun _ => M.ret f
  else M.err "baseDir must be an absolute path"

end GoRaml
