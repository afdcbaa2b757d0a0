import Verif.Model.Unwrap

/-!
# Recursion marking (unwrap.go:171-284, shape.go:524-536, 609-627)

`mark n a` is the call `r.FindAndMarkRecursion(a)`, cut off after `n` nested calls; hooks are left out.  No call adds or
removes entries of a map or slice, so each loop visits the positions present when it starts and reads the entry at that
position when it comes to it, as in Go.
-/

namespace GoRaml

/-- shape.go:609-627 `MakeBaseShape` (the position is not modelled; the empty annotation map is the default). -/
def makeBaseShape (name location : String) : M St Addr :=
  M.bind Heap.newID fun id =>
  M.bind (Heap.newFacets []) fun fm =>
  M.bind (Heap.newProps []) fun fd =>
  M.bind (Heap.newBase { id, name, location, facets := some fm, facetDefs := some fd }) fun a =>
  M.bind (Heap.putShape a) fun _ => M.ret a

/-- shape.go:524-536 `MakeRecursiveShape`. -/
def makeRecursive (a : Addr) (b : Base) : M St Addr :=
  M.bind (makeBaseShape b.name b.location) fun r =>
  M.bind (Heap.updBase r fun x =>
    { x with
      name := b.name
      type := "recursive"
      description := b.description
      domainProps := b.domainProps
      facets := b.facets
      shape := some (.recursive a) }) fun _ =>
  M.ret r

/-- unwrap.go:216-227, 245-255: one entry of a property map (the loop over custom facets does the same). -/
def markProp (rec : Addr → M St (Option Addr)) (i k : Nat) : M St Unit := fun h =>
  match (h.props (some i))[k]? with
  | none => (.ok (), h)
  | some kp =>
    (M.bind (rec kp.2.base) fun rs =>
    whenSome rs fun r => Heap.setPropAt i k (kp.1, { kp.2 with base := r })) h

/-- unwrap.go:258-268: one entry of a pattern property map. -/
def markPatProp (rec : Addr → M St (Option Addr)) (i k : Nat) : M St Unit := fun h =>
  match (h.patProps (some i))[k]? with
  | none => (.ok (), h)
  | some kp =>
    (M.bind (rec kp.2.base) fun rs =>
    whenSome rs fun r => Heap.setPatPropAt i k (kp.1, { kp.2 with base := r })) h

/-- unwrap.go:274-282: one union member. -/
def markMember (rec : Addr → M St (Option Addr)) (i k : Nat) : M St Unit := fun h =>
  match (h.slice (some i))[k]? with
  | none => (.ok (), h)
  | some m =>
    (M.bind (rec m) fun rs => whenSome rs fun r => Heap.setSliceAt i k r) h

/-- The loop over a property map. -/
def markProps (rec : Addr → M St (Option Addr)) (i : Nat) : M St Unit := fun h =>
  M.forEach (markProp rec i) (List.range (h.props (some i)).length) h

/-- The loop over a pattern property map. -/
def markPatProps (rec : Addr → M St (Option Addr)) (i : Nat) : M St Unit := fun h =>
  M.forEach (markPatProp rec i) (List.range (h.patProps (some i)).length) h

/-- The loop over union members. -/
def markMembers (rec : Addr → M St (Option Addr)) (i : Nat) : M St Unit := fun h =>
  M.forEach (markMember rec i) (List.range (h.slice (some i)).length) h

/-- unwrap.go:190-197, 230-284: the component types of the shape of `a`.  Marking never replaces the shape object of a
base, and changes no field of it except the items of an array. -/
def markShape (rec : Addr → M St (Option Addr)) (a : Addr) (s : Option Shape) : M St Unit :=
  match s with
  | some (.array f) =>
    whenSome f.items fun i => M.bind (rec i) fun rs =>
      whenSome rs fun r => setArray a { f with items := some r }
  | some (.object f) =>
    M.bind (whenSome f.properties fun i => markProps rec i) fun _ =>
      whenSome f.patternProperties fun i => markPatProps rec i
  | some (.union anyOf _) => whenSome anyOf fun i => markMembers rec i
  | _ => M.ret ()

/-- unwrap.go:174-213 `FindAndMarkRecursion`. -/
def mark : Nat → Addr → M St (Option Addr)
  | 0, _ => M.diverge
  | n + 1, a =>
    M.bind (Heap.getBase a) fun b =>
    if !b.unwrapped then M.err "shape is not unwrapped"
    else if b.visited then
      M.bind (makeRecursive a b) fun r =>
      M.bind (Heap.updBase r fun x => { x with unwrapped := true }) fun _ => M.ret (some r)
    else
      M.bind (Heap.updBase a fun x => { x with visited := true }) fun _ =>
      M.bind (markShape (mark n) a b.shape) fun _ =>
      M.bind (Heap.updBase a fun x => { x with visited := false }) fun _ =>
      M.bind (whenSome b.facetDefs fun i => markProps (mark n) i) fun _ =>
      M.ret none

end GoRaml
