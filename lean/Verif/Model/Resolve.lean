import Verif.Model.Decode
import Verif.Model.Rdt
import Verif.Model.Unwrap

/-!
# Resolving references (resolve.go, rdt_visitor.go) and parsing a document (parse.go:342-411)

`resolveShape E n a` is the call `r.resolveShape(a)`, cut off after `n` nested calls.

The visitor gets the `UnknownShape` object of the target, whose facets do not change when its base gets a new shape; the model passes the base and the
facets.  The shape object the visitor returns is always the one stored in the base of the target, so `baseResolved.SetShape(s)` changes
nothing and is left out; a nested call cannot replace it, since `resolveShape` returns at once for a base that is no longer unknown.
-/

namespace GoRaml

/-- rdt_visitor.go:159 `ctx.GetText()` of a reference: the texts of its tokens, without blanks. -/
def refText (a : String) (b : Option String) : String :=
  match b with
  | none => a
  | some b => a ++ "." ++ b

/-- shape.go:711-725 `MakeNewShape`. -/
def makeNewShape (E : Env) (c : Calls) (name shapeType location : String) : M St Addr :=
  M.bind (makeBaseShape name location) fun a =>
  M.bind (makeConcrete E c a shapeType none) fun _ => M.ret a

/-- `s.Base().Inherits = append(s.Base().Inherits, ref)`. -/
def appendInherits (a ref : Addr) : M St Unit := fun h =>
  match h.base a with
  | none => (.panic "nil pointer dereference", h)
  | some b =>
    (M.bind (Heap.newSlice (h.slice b.inherits ++ [ref])) fun i =>
    Heap.updBase a fun b => { b with inherits := some i }) h

/-- rdt_visitor.go:160-184 `VisitReference`; `rec` is `resolveShape`. -/
def visitReference (E : Env) (c : Calls) (rec : Addr → M St Unit) (text : String) (a : Addr) (facets : Option (List YNode)) : M St Unit :=
  M.bind (Heap.getBase a) fun target => fun h =>
    (M.bind (M.lift (getReferenced h Lib.types text target.location)) fun ref =>
    M.bind (Heap.getBase ref) fun refBase =>
    if refBase.id = target.id then M.err "self recursion"
    else
      M.bind (rec ref) fun _ =>
      M.bind (Heap.getBase ref) fun refBase =>
      M.bind (makeConcrete E c a refBase.type facets) fun _ =>
      M.bind (Heap.updBase a fun b => { b with typeLabel := text }) fun _ =>
      match facets with
      | none => Heap.updBase a fun b => { b with «alias» := some ref }
      | some _ => appendInherits a ref) h

/-- `unionShape.UnionFacets.AnyOf = ss`. -/
def setAnyOf (a : Addr) (ss : List Addr) : M St Unit :=
  M.bind (Heap.newSlice ss) fun i => setShape a (.union (some i) none)

/-- What the visitor does for a tree: `at_` is `Visit(tree, target)` (the target by its base and its facets), `members` is
rdt_visitor.go:47-65 `VisitUnionMembers` for the tree as the (rest of the) members of a union. -/
structure Visitor where
  at_ : Addr → Option (List YNode) → M St Unit
  members : String → M St (List Addr)

/-- A tree that is the last member: one anonymous base for it (rdt_visitor.go:55-63). -/
def Visitor.last (E : Env) (c : Calls) (at_ : Addr → Option (List YNode) → M St Unit) : Visitor :=
  { at_
    members := fun location =>
      M.bind (makeNewShape E c "" "" location) fun m =>
      M.bind (at_ m none) fun _ => M.ret [m] }

/-- rdt_visitor.go:134-150 `VisitUnion`. -/
def visitUnion (E : Env) (c : Calls) (members : String → M St (List Addr)) (a : Addr) (facets : Option (List YNode)) : M St Unit :=
  M.bind (Heap.getBase a) fun target =>
  M.bind (makeConcrete E c a "union" facets) fun _ =>
  M.bind (members target.location) fun ss => setAnyOf a ss

/-- rdt_visitor.go:87-110 `VisitOptional`. -/
def visitOptional (E : Env) (c : Calls) (v : Visitor) (a : Addr) (facets : Option (List YNode)) : M St Unit :=
  M.bind (Heap.getBase a) fun target =>
  M.bind (makeConcrete E c a "union" facets) fun _ =>
  M.bind (makeNewShape E c "" "" target.location) fun m =>
  M.bind (v.at_ m none) fun _ =>
  M.bind (makeNewShape E c "" "nil" target.location) fun n => setAnyOf a [m, n]

/-- rdt_visitor.go:112-132 `VisitArray`. -/
def visitArray (E : Env) (c : Calls) (v : Visitor) (a : Addr) (facets : Option (List YNode)) : M St Unit :=
  M.bind (Heap.getBase a) fun target =>
  M.bind (makeConcrete E c a "array" facets) fun _ =>
  M.bind (makeNewShape E c "" "" target.location) fun i =>
  M.bind (v.at_ i none) fun _ => fun h => setArray a { arrayAt h a with items := some i } h

/-- rdt_visitor.go:21-45 `Visit`, 79-85 `VisitPrimitive`, 152-158 `VisitGroup`.  The members of a union are right-nested in the model and flat in the
parse tree. -/
def visitor (E : Env) (c : Calls) (rec : Addr → M St Unit) : Rdt → Visitor
  | .prim p => .last E c fun a _ => makeConcrete E c a p.text none
  | .ref x y => .last E c (visitReference E c rec (refText x y))
  | .group e => .last E c (visitor E c rec e).at_
  | .optional e => .last E c (visitOptional E c (visitor E c rec e))
  | .array e => .last E c (visitArray E c (visitor E c rec e))
  | .union l r =>
    let members := fun location =>
      M.bind (makeNewShape E c "" "" location) fun m =>
      M.bind ((visitor E c rec l).at_ m none) fun _ =>
      M.bind ((visitor E c rec r).members location) fun ms => M.ret (m :: ms)
    { at_ := visitUnion E c members, members }

/-- resolve.go:87-100 `resolveMultipleInheritance`. -/
def resolveMultipleInheritance (E : Env) (c : Calls) (rec : Addr → M St Unit) (a : Addr) (facets : Option (List YNode)) : M St Unit :=
  M.bind (Heap.getBase a) fun b => fun h =>
    (M.bind (M.forEach rec (h.slice b.inherits)) fun _ =>
    match (h.slice b.inherits).head? with
    | none => M.panic "index out of range"
    | some i => M.bind (Heap.getBase i) fun ib => makeConcrete E c a ib.type facets) h

/-- resolve.go:102-112 `resolveLink`. -/
def resolveLink (E : Env) (c : Calls) (rec : Addr → M St Unit) (a : Addr) (dt : Nat) (facets : Option (List YNode)) : M St Unit := fun h =>
  match (h.dts[dt]?).bind (·.shape) with
  | none => (.panic "nil pointer dereference", h)
  | some l =>
    (M.bind (rec l) fun _ =>
    M.bind (Heap.getBase l) fun lb => makeConcrete E c a lb.type facets) h

/-- resolve.go:143-204 `resolveShape`, given the recursive calls. -/
def resolveStep (E : Env) (c : Calls) (rec : Addr → M St Unit) (a : Addr) : M St Unit :=
  M.bind (Heap.getBase a) fun b =>
  match b.shape with
  | none => M.err "shape is nil"
  | some (.unknown facets) =>
    match b.link with
    | some dt => resolveLink E c rec a dt facets
    | none =>
      if b.type = "composite" then resolveMultipleInheritance E c rec a facets
      else
        match parseTypeExpression b.type with
        | none => M.err "antlr error"
        | some tree => (visitor E c rec tree).at_ a facets
  | some _ => M.ret ()

/-- resolve.go:143-204 `resolveShape`. -/
def resolveShape (E : Env) : Nat → Addr → M St Unit
  | 0, _ => M.diverge
  | n + 1, a => resolveStep E (calls E n) (resolveShape E n) a

/-- resolve.go:26-51 `resolveShapes`: at most `m` turns of the loop; `good` tells whether all went well so far.  The base is removed after it
has been resolved; other bases are added at the end. -/
def resolveLoop (E : Env) (n : Nat) : Nat → Bool → M St Unit
  | m, good => fun h =>
    match h.unresolved with
    | [] => if good then (.ok (), h) else (.err "resolve shape", h)
    | a :: _ =>
      match m with
      | 0 => (.diverge, h)
      | m + 1 =>
        (M.bind (M.attempt (resolveShape E n a)) fun r =>
        M.bind (M.modify fun h => { h with unresolved := h.unresolved.tail }) fun _ =>
        resolveLoop E n m (good && (match r with | .ok _ => true | .error _ => false))) h

/-- resolve.go:26-51 `resolveShapes`. -/
def resolveShapes (E : Env) (n m : Nat) : M St Unit := resolveLoop E n m true

/-- resolve.go:76-85 `resolveDomainExtension`, for the extension at index `i`. -/
def resolveDomainExtension (i : Nat) : M St Unit := fun h =>
  match h.domainExts[i]? with
  | none => (.panic "index out of range", h)
  | some de =>
    (M.bind (M.lift (getReferenced h Lib.annotationTypes de.name de.location)) fun ref =>
    M.modify fun h => { h with domainExts := h.domainExts.modify i fun de => { de with definedBy := some ref } }) h

/-- resolve.go:54-72 `resolveDomainExtensions`: errors are collected. -/
def resolveExtLoop : List Nat → Bool → M St Unit
  | [], good => if good then M.ret () else M.err "resolve domain extension"
  | i :: rest, good =>
    M.bind (M.attempt (resolveDomainExtension i)) fun r =>
    resolveExtLoop rest (good && (match r with | .ok _ => true | .error _ => false))

/-- resolve.go:54-72 `resolveDomainExtensions`. -/
def resolveDomainExtensions : M St Unit := fun h => resolveExtLoop (List.range h.domainExts.length) true h

end GoRaml
