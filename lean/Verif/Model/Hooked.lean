import Verif.Model.UnwrapAll

/-!
# Hooks inside parsing, unwrapping and validation

The functions of the other files, with the calls of hooks that these leave out.  `H` says what `callHooks` (raml.go:83-98; the registry and the order of
hooks are in `Hooks.lean`) returns for a key and its parameters.  Hooks may look at the model but do not change it, and they may fail or panic.
`base.raml` is assumed to be non-nil (shape.go:80-86).  Functions without a call of a hook below them are those of the other files.
-/

namespace GoRaml

/-- A parameter of a hook. -/
inductive HookArg where
  | shape (a : Addr)
  /-- a union, by its members -/
  | union (members : List Addr)
  | path (p : String)
  | typeName (t : String)
  | node (v : YNode)
  | facets (l : Option (List YNode))
  | types (m : OMap Addr)
  | fragment (f : FragRef)
  | cache (m : List (Int × Addr))

/-- What the hooks of a key do, given the parameters and the model. -/
abbrev HookFn := String → List HookArg → St → Out Unit

/-- raml.go:85-100 `callHooks`. -/
def runHooks (H : HookFn) (key : String) (args : List HookArg) : M St Unit := fun h => (H key args h, h)

/-! ## Parsing -/

/-- shape.go:554-606 `MakeConcreteShapeYAML`. -/
def makeConcreteH (H : HookFn) (E : Env) (c : Calls) (a : Addr) (shapeType : String) (facets : Option (List YNode)) : M St Unit :=
  M.bind (runHooks H "before:RAML.makeConcreteShapeYAML" [.shape a, .typeName shapeType, .facets facets]) fun _ => makeConcrete E c a shapeType facets

/-- shape.go:758-768: the end of `makeNewShapeYAML`. -/
def finishShapeH (H : HookFn) (E : Env) (c : Calls) (a : Addr) (shapeType : String) (facets : Option (List YNode)) : M St Addr :=
  M.bind (makeConcreteH H E c a shapeType facets) fun _ =>
  match emptyShape shapeType with
  | .unknown _ => M.bind (Heap.pushUnresolved a) fun _ => M.ret a
  | _ => M.ret a

/-- shape.go:729-769 `makeNewShapeYAML`. -/
def makeNewShapeYAMLH (H : HookFn) (E : Env) (c : Calls) (v : YNode) (name location : String) : M St Addr :=
  M.bind (runHooks H "before:RAML.makeNewShapeYAML" [.node v]) fun _ =>
  M.bind (makeBaseShape name location) fun a =>
  M.bind (decode E c a location v) fun r =>
  match r.1 with
  | none => M.bind (M.lift (identifyShapeType (r.2.getD []))) fun t => finishShapeH H E c a t r.2
  | some t =>
    M.bind (makeShapeType E c t r.2 name location a) fun st =>
    match st with
    | none => M.ret a
    | some shapeType => finishShapeH H E c a shapeType r.2

/-- parse.go:123-162 `parseDataType`. -/
def parseDataTypeH (H : HookFn) (E : Env) (c : Calls) (path : String) : M St Nat :=
  M.bind (runHooks H "before:RAML.parseDataType" [.path path]) fun _ => parseDataType E c path

/-- The three functions, cut off after `n` nested calls. -/
def callsH (H : HookFn) (E : Env) : Nat → Calls
  | 0 => { makeShape := fun _ _ _ => M.diverge, parseDataType := fun _ => M.diverge, parseLibrary := fun _ => M.diverge }
  | n + 1 =>
    { makeShape := makeNewShapeYAMLH H E (callsH H E n)
      parseDataType := parseDataTypeH H E (callsH H E n)
      parseLibrary := parseLibrary E (callsH H E n) }

/-- shape.go:711-725 `MakeNewShape`. -/
def makeNewShapeH (H : HookFn) (E : Env) (c : Calls) (name shapeType location : String) : M St Addr :=
  M.bind (makeBaseShape name location) fun a =>
  M.bind (makeConcreteH H E c a shapeType none) fun _ => M.ret a

/-- rdt_visitor.go:160-184 `VisitReference`. -/
def visitReferenceH (H : HookFn) (E : Env) (c : Calls) (rec : Addr → M St Unit) (text : String) (a : Addr) (facets : Option (List YNode)) : M St Unit :=
  M.bind (Heap.getBase a) fun target => fun h =>
    (M.bind (M.lift (getReferenced h Lib.types text target.location)) fun ref =>
    M.bind (Heap.getBase ref) fun refBase =>
    if refBase.id = target.id then M.err "self recursion"
    else
      M.bind (rec ref) fun _ =>
      M.bind (Heap.getBase ref) fun refBase =>
      M.bind (makeConcreteH H E c a refBase.type facets) fun _ =>
      M.bind (Heap.updBase a fun b => { b with typeLabel := text }) fun _ =>
      match facets with
      | none => Heap.updBase a fun b => { b with «alias» := some ref }
      | some _ => appendInherits a ref) h

/-- A tree that is the last member: one anonymous base for it (rdt_visitor.go:55-63). -/
def Visitor.lastH (H : HookFn) (E : Env) (c : Calls) (at_ : Addr → Option (List YNode) → M St Unit) : Visitor :=
  { at_
    members := fun location =>
      M.bind (makeNewShapeH H E c "" "" location) fun m =>
      M.bind (at_ m none) fun _ => M.ret [m] }

/-- rdt_visitor.go:134-150 `VisitUnion`. -/
def visitUnionH (H : HookFn) (E : Env) (c : Calls) (members : String → M St (List Addr)) (a : Addr) (facets : Option (List YNode)) : M St Unit :=
  M.bind (Heap.getBase a) fun target =>
  M.bind (makeConcreteH H E c a "union" facets) fun _ =>
  M.bind (members target.location) fun ss => setAnyOf a ss

/-- rdt_visitor.go:87-110 `VisitOptional`. -/
def visitOptionalH (H : HookFn) (E : Env) (c : Calls) (v : Visitor) (a : Addr) (facets : Option (List YNode)) : M St Unit :=
  M.bind (Heap.getBase a) fun target =>
  M.bind (makeConcreteH H E c a "union" facets) fun _ =>
  M.bind (makeNewShapeH H E c "" "" target.location) fun m =>
  M.bind (v.at_ m none) fun _ =>
  M.bind (makeNewShapeH H E c "" "nil" target.location) fun n => setAnyOf a [m, n]

/-- rdt_visitor.go:112-132 `VisitArray`. -/
def visitArrayH (H : HookFn) (E : Env) (c : Calls) (v : Visitor) (a : Addr) (facets : Option (List YNode)) : M St Unit :=
  M.bind (Heap.getBase a) fun target =>
  M.bind (makeConcreteH H E c a "array" facets) fun _ =>
  M.bind (makeNewShapeH H E c "" "" target.location) fun i =>
  M.bind (v.at_ i none) fun _ => fun h => setArray a { arrayAt h a with items := some i } h

/-- rdt_visitor.go:21-45 `Visit`, 79-85 `VisitPrimitive`, 152-158 `VisitGroup`. -/
def visitorH (H : HookFn) (E : Env) (c : Calls) (rec : Addr → M St Unit) : Rdt → Visitor
  | .prim p => .lastH H E c fun a _ => makeConcreteH H E c a p.text none
  | .ref x y => .lastH H E c (visitReferenceH H E c rec (refText x y))
  | .group e => .lastH H E c (visitorH H E c rec e).at_
  | .optional e => .lastH H E c (visitOptionalH H E c (visitorH H E c rec e))
  | .array e => .lastH H E c (visitArrayH H E c (visitorH H E c rec e))
  | .union l r =>
    let members := fun location =>
      M.bind (makeNewShapeH H E c "" "" location) fun m =>
      M.bind ((visitorH H E c rec l).at_ m none) fun _ =>
      M.bind ((visitorH H E c rec r).members location) fun ms => M.ret (m :: ms)
    { at_ := visitUnionH H E c members, members }

/-- resolve.go:87-100 `resolveMultipleInheritance`. -/
def resolveMultipleInheritanceH (H : HookFn) (E : Env) (c : Calls) (rec : Addr → M St Unit) (a : Addr) (facets : Option (List YNode)) : M St Unit :=
  M.bind (Heap.getBase a) fun b => fun h =>
    (M.bind (M.forEach rec (h.slice b.inherits)) fun _ =>
    match (h.slice b.inherits).head? with
    | none => M.panic "index out of range"
    | some i => M.bind (Heap.getBase i) fun ib => makeConcreteH H E c a ib.type facets) h

/-- resolve.go:102-112 `resolveLink`. -/
def resolveLinkH (H : HookFn) (E : Env) (c : Calls) (rec : Addr → M St Unit) (a : Addr) (dt : Nat) (facets : Option (List YNode)) : M St Unit := fun h =>
  match (h.dts[dt]?).bind (·.shape) with
  | none => (.panic "nil pointer dereference", h)
  | some l =>
    (M.bind (rec l) fun _ =>
    M.bind (Heap.getBase l) fun lb => makeConcreteH H E c a lb.type facets) h

/-- resolve.go:143-204 `resolveShape`, given the recursive calls. -/
def resolveStepH (H : HookFn) (E : Env) (c : Calls) (rec : Addr → M St Unit) (a : Addr) : M St Unit :=
  M.bind (Heap.getBase a) fun b =>
  match b.shape with
  | none => M.err "shape is nil"
  | some (.unknown facets) =>
    match b.link with
    | some dt => resolveLinkH H E c rec a dt facets
    | none =>
      if b.type = "composite" then resolveMultipleInheritanceH H E c rec a facets
      else
        match parseTypeExpression b.type with
        | none => M.err "antlr error"
        | some tree => (visitorH H E c rec tree).at_ a facets
  | some _ => M.ret ()

/-- resolve.go:143-204 `resolveShape`. -/
def resolveShapeH (H : HookFn) (E : Env) : Nat → Addr → M St Unit
  | 0, _ => M.diverge
  | n + 1, a => resolveStepH H E (callsH H E n) (resolveShapeH H E n) a

/-- resolve.go:26-51: the loop of `resolveShapes`. -/
def resolveLoopH (H : HookFn) (E : Env) (n : Nat) : Nat → Bool → M St Unit
  | m, good => fun h =>
    match h.unresolved with
    | [] => if good then (.ok (), h) else (.err "resolve shape", h)
    | a :: _ =>
      match m with
      | 0 => (.diverge, h)
      | m + 1 =>
        (M.bind (M.attempt (resolveShapeH H E n a)) fun r =>
        M.bind (M.modify fun h => { h with unresolved := h.unresolved.tail }) fun _ =>
        resolveLoopH H E n m (good && (match r with | .ok _ => true | .error _ => false))) h

/-- parse.go:343-384: decode the fragment by the kind its head names. -/
def decodeEntryH (H : HookFn) (E : Env) (n : Nat) (text path : String) : M St FragRef :=
  M.bind (M.lift (readHead text)) fun head =>
  M.bind (M.lift (identifyFragment head)) fun kind =>
  match kind with
  | .library => M.bind (decodeLibrary E (callsH H E n) text path) fun i => M.ret (.library i)
  | .dataType => M.bind (decodeDataType E (callsH H E n) text path) fun i => M.ret (.dataType i)
  | .namedExample => M.bind (decodeNamedExample E text path) fun i => M.ret (.namedExample i)

/-- parse.go:342-394 `parseFragment`, without the options. -/
def parseFragmentH (H : HookFn) (E : Env) (n m : Nat) (text path : String) : M St FragRef :=
  M.bind (decodeEntryH H E n text path) fun f =>
  M.bind (resolveLoopH H E n m true) fun _ =>
  M.bind resolveDomainExtensions fun _ => M.ret f

/-- parse.go:306-328 `ParseFromPath`, without options. -/
def parseFromPathH (H : HookFn) (E : Env) (n m : Nat) (path : String) : M St FragRef :=
  match E.file path with
  | none => M.err "open fragment file"
  | some text => parseFragmentH H E n m text path

/-! ## Unwrapping -/

/-- shape.go:184-237 `inheritUnionSource`. -/
def inheritUnionSourceH (H : HookFn) (rec : Addr → Addr → M St Addr) (a : Addr) (members : List Addr) : M St Addr :=
  M.bind (runHooks H "BaseShape.inheritUnionSource" [.shape a, .union members]) fun _ => inheritUnionSource rec a members

/-- shape.go:241-264 `inheritUnionTarget`. -/
def inheritUnionTargetH (H : HookFn) (rec : Addr → Addr → M St Addr) (a : Addr) (members : List Addr) : M St Addr :=
  M.bind (runHooks H "BaseShape.inheritUnionTarget" [.shape a, .union members]) fun _ => inheritUnionTarget rec a members

/-- shape.go:157-179: the part of `Inherit` that depends on the shapes. -/
def inheritDispatchH (H : HookFn) (rec : Addr → Addr → M St Addr) (a b : Addr) : M St Addr :=
  M.bind (Heap.getBase a) fun s =>
  M.bind (Heap.getBase b) fun src =>
  match src.shape, s.shape with
  | some .any, _ => M.ret a
  | some (.union _ _), some (.union _ _) =>
    M.bind (inheritUnion rec a b) fun _ =>
    M.bind (Heap.updBase b fun x => { x with visited := false }) fun _ => M.ret a
  | some (.union anyOf _), _ => fun h => inheritUnionSourceH H rec a (h.slice anyOf) h
  | _, some (.union anyOf _) => fun h => inheritUnionTargetH H rec a (h.slice anyOf) h
  | _, none => M.panic "nil pointer dereference"
  | none, _ => M.panic "nil pointer dereference"
  | some source, some target =>
    M.bind (inheritShape rec a b target source) fun _ =>
    M.bind (Heap.updBase b fun x => { x with visited := false }) fun _ => M.ret a

/-- shape.go:126-180 `BaseShape.Inherit`. -/
def inheritH (H : HookFn) : Nat → Addr → Addr → M St Addr
  | 0, _, _ => M.diverge
  | n + 1, a, b =>
    M.bind (runHooks H "BaseShape.Inherit" [.shape a, .shape b]) fun _ =>
    M.bind (Heap.getBase a) fun _ =>
    M.bind (Heap.getBase b) fun src =>
    if src.visited then M.ret b
    else
      M.bind (Heap.updBase b fun x => { x with visited := true }) fun _ =>
      M.bind (Heap.updBase a fun x =>
        { x with description := match x.description with | none => src.description | some d => some d }) fun _ =>
      M.bind (inheritFacets a b) fun _ =>
      inheritDispatchH H (inheritH H n) a b

/-- unwrap.go:359-370: the further parents. -/
def unwrapMoreParentsH (H : HookFn) (rec : Addr → M St Addr) (n : Nat) (ss : Addr) (i : Nat) : Nat → Nat → M St Unit
  | 0, _ => M.ret ()
  | left + 1, k => fun h =>
    match (h.slice (some i))[k]? with
    | none => (.ok (), h)
    | some p =>
      (M.bind (rec p) fun us =>
      M.bind (inheritH H n ss us) fun us' =>
      M.bind (Heap.setSliceAt i k us') fun _ => unwrapMoreParentsH H rec n ss i left (k + 1)) h

/-- unwrap.go:339-374 `unwrapParents`. -/
def unwrapParentsH (H : HookFn) (rec : Addr → M St Addr) (n : Nat) (a : Addr) : M St (Option Addr) :=
  M.bind (Heap.getBase a) fun b => fun h =>
  match b.link with
  | some d =>
    match (h.dts[d]?).bind (·.shape) with
    | none => (.panic "nil pointer dereference", h)
    | some x =>
      (M.bind (rec x) fun us =>
      M.bind (Heap.updBase a fun y => { y with link := none }) fun _ => M.ret (some us)) h
  | none =>
    match b.inherits, h.slice b.inherits with
    | some i, p :: ps =>
      (M.bind (rec p) fun ss =>
      M.bind (Heap.setSliceAt i 0 ss) fun _ =>
      M.bind (unwrapMoreParentsH H rec n ss i ps.length 1) fun _ => M.ret (some ss)) h
    | _, _ => (.ok none, h)

/-- unwrap.go:448-458: inherit from the source, register the result. -/
def unwrapFinishH (H : HookFn) (n : Nat) (a : Addr) (source : Option Addr) : M St Addr :=
  M.bind (match source with
    | none => M.ret a
    | some s => inheritH H n a s) fun r =>
  M.bind (Heap.putShape r) fun _ => M.ret r

/-- unwrap.go:398-459 `UnwrapShape`. -/
def unwrapH (H : HookFn) : Nat → Addr → M St Addr
  | 0, _ => M.diverge
  | n + 1, a =>
    M.bind (runHooks H "RAML.UnwrapShape" [.shape a]) fun _ =>
    M.bind (Heap.getBase a) fun b =>
    match b.shape with
    | none => M.err "shape is nil"
    | some _ =>
      if b.unwrapped then M.ret a
      else
        M.bind (Heap.updBase a fun y => { y with unwrapped := true }) fun _ =>
        match b.alias with
        | some t =>
          M.bind (unwrapH H n t) fun us =>
          M.bind (Heap.putShape a) fun _ => aliasTo a us
        | none =>
          M.bind (unwrapParentsH H (unwrapH H n) n a) fun source =>
          M.bind (unwrapTarget (unwrapH H n) n a) fun _ =>
          M.bind (Heap.getBase a) fun b' =>
          M.bind (whenSome b'.facetDefs fun i => unwrapFacetDefs (unwrapH H n) a i n 0) fun _ =>
          unwrapFinishH H n a source

/-- unwrap.go:174-213 `FindAndMarkRecursion`. -/
def markH (H : HookFn) : Nat → Addr → M St (Option Addr)
  | 0, _ => M.diverge
  | n + 1, a =>
    M.bind (runHooks H "RAML.FindAndMarkRecursion" [.shape a]) fun _ =>
    M.bind (Heap.getBase a) fun b =>
    if !b.unwrapped then M.err "shape is not unwrapped"
    else if b.visited then
      M.bind (makeRecursive a b) fun r =>
      M.bind (Heap.updBase r fun x => { x with unwrapped := true }) fun _ => M.ret (some r)
    else
      M.bind (Heap.updBase a fun x => { x with visited := true }) fun _ =>
      M.bind (markShape (markH H n) a b.shape) fun _ =>
      M.bind (Heap.updBase a fun x => { x with visited := false }) fun _ =>
      M.bind (whenSome b.facetDefs fun i => markProps (markH H n) i) fun _ =>
      M.ret none

/-- unwrap.go:17-44: one type of the library at `i`. -/
def unwrapTypeH (H : HookFn) (n : Nat) (c : Sect) (i : Nat) (location : String) (ka : String × Addr) : M St Unit :=
  M.bind (unwrapH H n ka.2) fun us =>
  M.bind (setType c i ka.1 us) fun _ =>
  M.bind (Heap.getBase us) fun u =>
  match c with
  | .types => Heap.putType u.name location ka.2
  | .annotationTypes => Heap.putAnnotationType u.name location ka.2

/-- unwrap.go:49-60 `unwrapLibrary`. -/
def unwrapLibraryH (H : HookFn) (n : Nat) (i : Nat) (l : Lib) : M St Unit :=
  M.tryBoth (M.tryEach (unwrapTypeH H n .annotationTypes i l.location) l.annotationTypes) (M.tryEach (unwrapTypeH H n .types i l.location) l.types)

/-- unwrap.go:62-75 `unwrapDataType`. -/
def unwrapDataTypeH (H : HookFn) (n : Nat) (i : Nat) (d : DT) : M St Unit :=
  match d.shape with
  | none => M.err "shape is nil"
  | some a =>
    M.bind (unwrapH H n a) fun us =>
    M.bind (M.modify fun h => { h with dts := h.dts.modify i fun d => { d with shape := some us } }) fun _ =>
    M.bind (Heap.getBase us) fun u => Heap.putType u.name d.location us

/-- unwrap.go:80-100: one fragment. -/
def unwrapFragmentH (H : HookFn) (n : Nat) (f : FragRef) : M St Unit := fun h =>
  match f with
  | .library i =>
    match h.libs[i]? with
    | none => (.panic "nil pointer dereference", h)
    | some l => unwrapLibraryH H n i l h
  | .dataType i =>
    match h.dts[i]? with
    | none => (.panic "nil pointer dereference", h)
    | some d => unwrapDataTypeH H n i d h
  | .namedExample _ => (.ok (), h)

/-- unwrap.go:147-170: one fragment. -/
def markFragmentH (H : HookFn) (n : Nat) (f : FragRef) : M St Unit := fun h =>
  match f with
  | .library i =>
    match h.libs[i]? with
    | none => (.panic "nil pointer dereference", h)
    | some l => M.forEach (fun ka => M.bind (markH H n ka.2) fun _ => M.ret ()) (l.annotationTypes ++ l.types) h
  | .dataType i =>
    match (h.dts[i]?).bind (·.shape) with
    | none => (.panic "nil pointer dereference", h)
    | some a => M.bind (markH H n a) (fun _ => M.ret ()) h
  | .namedExample _ => (.ok (), h)

/-- unwrap.go:125-144 `UnwrapShapes`. -/
def unwrapShapesH (H : HookFn) (n : Nat) (frags frags' : List FragRef) : M St Unit :=
  M.bind (M.modify fun h => { h with fragTypes := [], fragAnnotationTypes := [], shapes := [] }) fun _ =>
  M.bind (M.tryEach (unwrapFragmentH H n) frags) fun _ =>
  M.bind (M.forEach (markFragmentH H n) frags') fun _ => unwrapDomainExtensions

/-! ## Validation -/

/-- validate.go:230-253 `validateObjectShape`, 268-287: the component types of `a`. -/
def validateComponentsH (H : HookFn) (rec : Addr → Out Unit) (h : St) (a : Addr) (s : Option Shape) : Out Unit :=
  match s with
  | some (.object f) =>
    (H "RAML.validateObjectShape" [.shape a] h).bind fun _ => validateComponents rec h (some (.object f))
  | s => validateComponents rec h s

/-- validate.go:257-299 `validateShapeCommons`. -/
def validateCommonsH (H : HookFn) (E : Ext) (h : St) (ord : OMap Property → OMap Property) : Nat → Addr → Out Unit
  | 0, _ => .diverge
  | n + 1, a =>
    (H "RAML.validateShapeCommons" [.shape a] h).bind fun _ =>
    match h.base a with
    | none => .panic "nil pointer dereference"
    | some b =>
      (H "RAML.validateShapeFacets" [.shape a] h).bind fun _ =>
      (validateShapeFacets E h ord n b).bind fun _ =>
      (H "RAML.validateExamples" [.shape a] h).bind fun _ =>
      (validateExamples E h n a b).bind fun _ =>
      (validateComponentsH H (validateCommonsH H E h ord n) h a b.shape).bind fun _ =>
      Out.forEach (fun kp => validateCommonsH H E h ord n kp.2.base) (h.props b.facetDefs)

/-- A call of hooks that get the cache. -/
def runHooksV (H : HookFn) (key : String) (args : List HookArg) : M VSt Unit := fun s => (H key (args ++ [.cache s.cache]) s.h, s)

/-- validate.go:10-29 `unwrapShape`. -/
def unwrapCopyH (H : HookFn) (n : Nat) (a : Addr) : M VSt Addr :=
  M.bind (onSt (Heap.getBase a)) fun b =>
  if b.unwrapped then M.ret a
  else
    M.bind (onSt (cloneDetached n a)) fun c =>
    M.bind (onSt (unwrapH H n c)) fun us =>
    M.bind (onSt (markH H n us)) fun _ =>
    M.bind (onSt (Heap.getBase c)) fun c' =>
    M.bind (M.modify fun s => { s with cache := (c'.id, us) :: s.cache }) fun _ => M.ret us

/-- validate.go:43-70, 100-127: one type. -/
def validateTypeH (H : HookFn) (E : Ext) (ord : OMap Property → OMap Property) (n : Nat) (a : Addr) : M VSt Unit :=
  M.bind (unwrapCopyH H n a) fun u =>
  M.bind M.get fun s =>
  M.bind (M.lift (check E s.h n u)) fun _ =>
  M.lift (validateCommonsH H E s.h ord n u)

/-- validate.go:33-75 `validateTypes`. -/
def validateTypesH (H : HookFn) (E : Ext) (ord : OMap Property → OMap Property) (n : Nat) (types : OMap Addr) : M VSt Unit :=
  M.bind (runHooksV H "RAML.validateTypes" [.types types]) fun _ =>
  M.tryEach (fun ka => validateTypeH H E ord n ka.2) types

/-- validate.go:79-93 `validateLibrary`, for the library `l` at `i`. -/
def validateLibraryH (H : HookFn) (E : Ext) (ord : OMap Property → OMap Property) (n : Nat) (i : Nat) (l : Lib) : M VSt Unit :=
  M.bind (runHooksV H "RAML.validateLibrary" [.fragment (.library i)]) fun _ =>
  M.tryBoth (validateTypesH H E ord n l.annotationTypes) (validateTypesH H E ord n l.types)

/-- validate.go:139-158: one fragment; 94-100: the hook of a data type. -/
def validateFragmentH (H : HookFn) (E : Ext) (ord : OMap Property → OMap Property) (n : Nat) (f : FragRef) : M VSt Unit := fun s =>
  match f with
  | .library i =>
    match s.h.libs[i]? with
    | none => (.panic "nil pointer dereference", s)
    | some l => validateLibraryH H E ord n i l s
  | .dataType i =>
    (M.bind (runHooksV H "RAML.validateDataType" [.fragment (.dataType i)]) fun _ => fun s =>
    match (s.h.dts[i]?).bind (·.shape) with
    | none => (.panic "nil pointer dereference", s)
    | some a => validateTypeH H E ord n a s) s
  | .namedExample _ => (.ok (), s)

/-- validate.go:134-160 `validateFragments`. -/
def validateFragmentsH (H : HookFn) (E : Ext) (ord : OMap Property → OMap Property) (n : Nat) (frags : List FragRef) : M VSt Unit :=
  M.bind (runHooksV H "RAML.validateFragments" []) fun _ => M.tryEach (validateFragmentH H E ord n) frags

/-- validate.go:164-200 `validateDomainExtensions`. -/
def validateDomainExtensionsH (H : HookFn) (E : Ext) (n : Nat) : M VSt Unit :=
  M.bind (runHooksV H "RAML.validateDomainExtensions" []) fun _ => validateDomainExtensions E n

/-- validate.go:204-223 `ValidateShapes`. -/
def validateShapesH (H : HookFn) (E : Ext) (ord : OMap Property → OMap Property) (frags : List FragRef) (n : Nat) : M St Unit :=
  M.bind (runHooks H "RAML.ValidateShapes" []) fun _ => fun h =>
  let r := M.tryBoth (validateFragmentsH H E ord n frags) (validateDomainExtensionsH H E n) ⟨h, []⟩
  (r.1, r.2.h)

/-- parse.go:394-410: the end of `parseFragment`. -/
def finishParseH (H : HookFn) (E : Env) (ord : Orders) (n : Nat) (o : ParseOpts) : M St Unit :=
  M.bind (if o.withUnwrap then fun h => unwrapShapesH H n (ord.unwrap h.fragments) (ord.mark h.fragments) h else M.ret ()) fun _ =>
  if o.withValidate then fun h => validateShapesH H E.toExt ord.facets (ord.validate h.fragments) n h else M.ret ()

/-- parse.go:306-329, 342-411 `ParseFromPath` with options. -/
def parseWithH (H : HookFn) (E : Env) (ord : Orders) (n m : Nat) (path : String) (o : ParseOpts) : M St FragRef :=
  M.bind (parseFromPathH H E n m path) fun f => M.bind (finishParseH H E ord n o) fun _ => M.ret f

end GoRaml
