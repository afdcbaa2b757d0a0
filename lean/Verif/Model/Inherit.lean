import Verif.Model.Scalars
import Verif.Model.Clone

/-!
# Inheritance (shape.go:126-264 and the `inherit` methods in complex.go, scalars.go)

`inherit n a b` is the call `a.Inherit(b)`, cut off after `n` nested calls.  The hooks called at the start of
`Inherit`, `inheritUnionSource` and `inheritUnionTarget` are left out: no hook is registered in the model of
inheritance (hooks have their own model).  `base.raml` is assumed to be non-nil.
-/

namespace GoRaml

/-- `target.inherit(source)` for shapes without component types: scalars.go:156, 374, 564, 722, 871, 983, 1073,
1146, 1219, 1284, 1352, complex.go:956-973 (json), 1023 (unknown), 1083 (recursive).  A source of another dynamic
type is an error. -/
def leafInherit : Shape → Shape → Out Shape
  | .string f, .string g => (f.inherit g).bind fun r => .ok (.string r)
  | .integer f, .integer g => (f.inherit g).bind fun r => .ok (.integer r)
  | .number f, .number g => (f.inherit g).bind fun r => .ok (.number r)
  | .file f, .file g => (f.inherit g).bind fun r => .ok (.file r)
  | .boolean e, .boolean e' => (inheritEnum e e').bind fun r => .ok (.boolean r)
  | .datetime f, .datetime f' => (inheritFormat f f').bind fun r => .ok (.datetime r)
  | .datetimeOnly, .datetimeOnly => .ok .datetimeOnly
  | .dateOnly, .dateOnly => .ok .dateOnly
  | .timeOnly, .timeOnly => .ok .timeOnly
  | .nil, .nil => .ok .nil
  | .any, .any => .ok .any
  | .json raw _, .json raw' schema' =>
    if raw ≠ "" ∧ raw' ≠ "" ∧ raw ≠ raw' then .err "cannot inherit from different JSON schema"
    else .ok (.json raw' schema')
  | .unknown _, _ => .err "cannot inherit from unknown shape"
  | .recursive _, _ => .err "cannot inherit from recursive shape"
  | _, _ => .err "cannot inherit from different type"

/-- complex.go:137-161: the bounds part of `ArrayShape.inherit`. -/
def ArrayF.inheritBounds (s ss : ArrayF) : Out ArrayF :=
  (inheritLower natLt s.minItems ss.minItems).bind fun minItems =>
  (inheritUpper natLt s.maxItems ss.maxItems).bind fun maxItems =>
  match s.uniqueItems, ss.uniqueItems with
  | none, u => .ok { s with minItems, maxItems, uniqueItems := u }
  | some false, some true => .err "uniqueItems constraint violation"
  | some _, _ => .ok { s with minItems, maxItems }

/-- complex.go:607-622, 511-533: additionalProperties, discriminator and the property counts. -/
def ObjectF.inheritOwn (s ss : ObjectF) : Out ObjectF :=
  let additionalProperties := match s.additionalProperties with
    | none => ss.additionalProperties | some b => some b
  let discriminator := match s.discriminator with | none => ss.discriminator | some d => some d
  (inheritLower natLt s.minProperties ss.minProperties).bind fun minProperties =>
  (inheritUpper natLt s.maxProperties ss.maxProperties).bind fun maxProperties =>
  .ok { s with additionalProperties, discriminator, minProperties, maxProperties }

/-- Assign the shape of a base (stands for assigning fields of the shape object). -/
def setShape (a : Addr) (s : Shape) : M St Unit := Heap.updBase a fun b => { b with shape := some s }

/-- Assign facets of the array shape that `a` held when its `inherit` method was entered.  If a nested call has replaced
the shape in the meantime (possible only for cyclic types), the assignment hits an object that is no longer in use. -/
def setArray (a : Addr) (f : ArrayF) : M St Unit := Heap.updBase a fun b =>
  match b.shape with
  | some (.array _) => { b with shape := some (.array f) }
  | _ => b

/-- Assign facets of the object shape that `a` held when its `inherit` method was entered, likewise. -/
def setObject (a : Addr) (f : ObjectF) : M St Unit := Heap.updBase a fun b =>
  match b.shape with
  | some (.object _) => { b with shape := some (.object f) }
  | _ => b

/-- The facets of the array shape at `a`.  The default is not reached: the dynamic type was tested before. -/
def arrayAt (h : St) (a : Addr) : ArrayF :=
  match h.shapeAt a with
  | some (.array f) => f
  | _ => {}

/-- The facets of the object shape at `a`. -/
def objectAt (h : St) (a : Addr) : ObjectF :=
  match h.shapeAt a with
  | some (.object f) => f
  | _ => {}

/-- complex.go:123-161 `ArrayShape.inherit` for an array source at `b`.  Facets are read again after the nested call. -/
def inheritArray (rec : Addr → Addr → M St Addr) (a b : Addr) : M St Unit :=
  M.bind M.get fun h =>
  M.bind (match (arrayAt h a).items, (arrayAt h b).items with
    | none, items => setArray a { arrayAt h a with items }
    | some i, some j => M.bind (rec i j) fun _ => M.ret ()
    | some _, none => M.ret ()) fun _ =>
  M.bind M.get fun h =>
  M.bind (M.lift ((arrayAt h a).inheritBounds (arrayAt h b))) fun f => setArray a f

/-- complex.go:545-566: body of the loop over the source's properties; `i` is the target's map. -/
def inheritProp (rec : Addr → Addr → M St Addr) (i : Nat) (kp : String × Property) : M St Unit :=
  M.bind M.get fun h =>
  match OMap.get (h.props (some i)) kp.1 with
  | some tp =>
    if kp.2.required && !tp.required then M.err "cannot make required property optional"
    else M.bind (rec tp.base kp.2.base) fun _ => M.ret ()
  | none => Heap.setProp i kp.1 kp.2

/-- complex.go:534-567 `inheritProperties`.  Simplification: the loop runs over the entries present when it starts. -/
def inheritProperties (rec : Addr → Addr → M St Addr) (a b : Addr) : M St Unit :=
  M.bind M.get fun h =>
  match (objectAt h a).properties, (objectAt h b).properties with
  | none, properties => setObject a { objectAt h a with properties }
  | some _, none => M.ret ()
  | some i, some j => M.forEach (inheritProp rec i) (h.props (some j))

/-- complex.go:576-588: body of the loop over the source's pattern properties. -/
def inheritPatProp (rec : Addr → Addr → M St Addr) (i : Nat) (kp : String × PatternProperty) : M St Unit :=
  M.bind M.get fun h =>
  match OMap.get (h.patProps (some i)) kp.1 with
  | some tp => M.bind (rec tp.base kp.2.base) fun _ => M.ret ()
  | none => Heap.setPatProp i kp.1 kp.2

/-- complex.go:570-591 `inheritPatternProperties`, with the same simplification. -/
def inheritPatternProperties (rec : Addr → Addr → M St Addr) (a b : Addr) : M St Unit :=
  M.bind M.get fun h =>
  match (objectAt h a).patternProperties, (objectAt h b).patternProperties with
  | none, patternProperties => setObject a { objectAt h a with patternProperties }
  | some _, none => M.ret ()
  | some i, some j => M.forEach (inheritPatProp rec i) (h.patProps (some j))

/-- complex.go:594-631 `ObjectShape.inherit` for an object source at `b`. -/
def inheritObject (rec : Addr → Addr → M St Addr) (a b : Addr) : M St Unit :=
  M.bind M.get fun h =>
  M.bind (M.lift ((objectAt h a).inheritOwn (objectAt h b))) fun f =>
  M.bind (setObject a f) fun _ =>
  M.bind (inheritProperties rec a b) fun _ =>
  inheritPatternProperties rec a b

/-- Clone a shape, give the clone a new ID and let it inherit from `source` (shape.go:200-206, complex.go:890-895).
The fuel of the clone always suffices (property C23). -/
def inheritClone (rec : Addr → Addr → M St Addr) (target source : Addr) : M St Addr :=
  M.bind M.get fun h =>
  M.bind (cloneDetached (h.bases.length + 1) target) fun c =>
  M.bind Heap.newID fun id =>
  M.bind (Heap.updBase c fun b => { b with id }) fun _ =>
  rec c source

/-- complex.go:887-902: the loop over the target's members for one source member. -/
def inheritMember (rec : Addr → Addr → M St Addr) (source : Addr) : List Addr → M St (List Addr)
  | [] => M.ret []
  | t :: ts =>
    M.bind (Heap.getBase source) fun sb =>
    M.bind (Heap.getBase t) fun tb =>
    if sb.type = tb.type then
      M.bind (M.attempt (inheritClone rec t source)) fun r =>
      M.bind (inheritMember rec source ts) fun rest =>
      match r with
      | .ok m => M.ret (m :: rest)
      | .error _ => M.ret rest
    else inheritMember rec source ts

/-- complex.go:885-908: the loop over the source's members. -/
def inheritMembers (rec : Addr → Addr → M St Addr) (targets : List Addr) : List Addr → M St (List Addr)
  | [] => M.ret []
  | s :: ss =>
    M.bind (inheritMember rec s targets) fun filtered =>
    if filtered.isEmpty then M.err "failed to find compatible union member"
    else M.bind (inheritMembers rec targets ss) fun rest => M.ret (filtered ++ rest)

/-- The members and the enum of the union at `a`. -/
def unionAt (h : St) (a : Addr) : Option Nat × Option (List GoVal) :=
  match h.shapeAt a with
  | some (.union anyOf e) => (anyOf, e)
  | _ => (none, none)

/-- complex.go:873-911 `UnionShape.inherit` for a union source at `b`. -/
def inheritUnion (rec : Addr → Addr → M St Addr) (a b : Addr) : M St Unit :=
  M.bind M.get fun h =>
  let t := unionAt h a
  let s := unionAt h b
  if (h.slice t.1).isEmpty then setShape a (.union s.1 t.2)
  else
    M.bind (inheritMembers rec (h.slice t.1) (h.slice s.1)) fun l =>
    M.bind (Heap.newSlice l) fun i =>
    setShape a (.union (some i) t.2)

/-- `target.inherit(source)` by dynamic type; the object case accepts a recursive source, whose head is used
(complex.go:594-596). -/
def inheritShape (rec : Addr → Addr → M St Addr) (a b : Addr) (target source : Shape) : M St Unit :=
  match target, source with
  | .array _, .array _ => inheritArray rec a b
  | .object _, .object _ => inheritObject rec a b
  | .object _, .recursive hd =>
    M.bind (Heap.getShape hd) fun s =>
    match s with
    | .object _ => inheritObject rec a hd
    | _ => M.err "cannot inherit from different type"
  | .union _ _, .union _ _ => inheritUnion rec a b
  | .array _, _ => M.err "cannot inherit from different type"
  | .object _, _ => M.err "cannot inherit from different type"
  | .union _ _, _ => M.err "cannot inherit from different type"
  | t, s => M.bind (M.lift (leafInherit t s)) fun r => setShape a r

/-- shape.go:190-219: the loop of `inheritUnionSource`; `none` when an any-typed member was met. -/
def unionSourceLoop (rec : Addr → Addr → M St Addr) (a : Addr) : List Addr → M St (Option (List Addr))
  | [] => M.ret (some [])
  | m :: ms =>
    M.bind (Heap.getBase m) fun mb =>
    match mb.shape with
    | some .any => M.ret none
    | _ =>
      M.bind (Heap.getBase a) fun s =>
      if mb.type = s.type then
        M.bind (M.attempt (inheritClone rec a m)) fun r =>
        M.bind (unionSourceLoop rec a ms) fun rest =>
        match r, rest with
        | .ok c, some l => M.ret (some (c :: l))
        | .error _, some l => M.ret (some l)
        | _, none => M.ret none
      else unionSourceLoop rec a ms

/-- shape.go:184-237 `inheritUnionSource`. -/
def inheritUnionSource (rec : Addr → Addr → M St Addr) (a : Addr) (members : List Addr) : M St Addr :=
  M.bind (unionSourceLoop rec a members) fun r =>
  match r with
  | none => M.ret a
  | some [] => M.err "failed to find compatible union member"
  | some [c] => M.ret c
  | some l =>
    M.bind (Heap.newSlice l) fun i =>
    M.bind (Heap.updBase a fun b => { b with type := "union", shape := some (.union (some i) none) }) fun _ =>
    M.ret a

/-- shape.go:247-260: the loop of `inheritUnionTarget`; the result says whether some member failed. -/
def unionTargetLoop (rec : Addr → Addr → M St Addr) (a : Addr) : List Addr → M St Bool
  | [] => M.ret false
  | m :: ms =>
    M.bind (M.attempt (rec m a)) fun r =>
    M.bind (unionTargetLoop rec a ms) fun failed =>
    match r with
    | .ok _ => M.ret failed
    | .error _ => M.ret true

/-- shape.go:241-264 `inheritUnionTarget`: each member inherits from the union base itself. -/
def inheritUnionTarget (rec : Addr → Addr → M St Addr) (a : Addr) (members : List Addr) : M St Addr :=
  M.bind (unionTargetLoop rec a members) fun failed =>
  if failed then M.err "merge shapes" else M.ret a

/-- shape.go:149-154: body of the loop over the source's custom facets; `i` is the target's map. -/
def inheritFacet (i : Nat) (kv : String × GoVal) : M St Unit := fun h =>
  match OMap.get (h.facetMap (some i)) kv.1 with
  | some _ => (.ok (), h)
  | none => Heap.setFacet i kv.1 kv.2 h

/-- shape.go:145-155: merging the custom facets of the source base into the target base. -/
def inheritFacets (a b : Addr) : M St Unit :=
  M.bind (Heap.getBase a) fun s =>
  M.bind (Heap.getBase b) fun src =>
  match s.facets, src.facets with
  | none, facets => Heap.updBase a fun s => { s with facets }
  | some _, none => M.ret ()
  | some i, some j => fun h => M.forEach (inheritFacet i) (h.facetMap (some j)) h

/-- shape.go:157-179: the part of `Inherit` that depends on the shapes.  A nil source shape fails the type tests of
the `inherit` methods and is then dereferenced for the error message. -/
def inheritDispatch (rec : Addr → Addr → M St Addr) (a b : Addr) : M St Addr :=
  M.bind (Heap.getBase a) fun s =>
  M.bind (Heap.getBase b) fun src =>
  match src.shape, s.shape with
  | some .any, _ => M.ret a
  | some (.union _ _), some (.union _ _) =>
    M.bind (inheritUnion rec a b) fun _ =>
    M.bind (Heap.updBase b fun x => { x with visited := false }) fun _ => M.ret a
  | some (.union anyOf _), _ => fun h => inheritUnionSource rec a (h.slice anyOf) h
  | _, some (.union anyOf _) => fun h => inheritUnionTarget rec a (h.slice anyOf) h
  | _, none => M.panic "nil pointer dereference"
  | none, _ => M.panic "nil pointer dereference"
  | some source, some target =>
    M.bind (inheritShape rec a b target source) fun _ =>
    M.bind (Heap.updBase b fun x => { x with visited := false }) fun _ => M.ret a

/-- shape.go:126-180 `BaseShape.Inherit`. -/
def inherit : Nat → Addr → Addr → M St Addr
  | 0, _, _ => M.diverge
  | n + 1, a, b =>
    M.bind (Heap.getBase a) fun _ =>
    M.bind (Heap.getBase b) fun src =>
    if src.visited then M.ret b
    else
      M.bind (Heap.updBase b fun x => { x with visited := true }) fun _ =>
      M.bind (Heap.updBase a fun x =>
        { x with description := match x.description with | none => src.description | some d => some d }) fun _ =>
      M.bind (inheritFacets a b) fun _ =>
      inheritDispatch (inherit n) a b

end GoRaml
