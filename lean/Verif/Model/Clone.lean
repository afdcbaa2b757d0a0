import Verif.Model.Monad

/-!
# Cloning (shape.go:287-376 and the `clone` methods in complex.go, scalars.go)

The clone map is keyed by shape ID, as in Go.  `clone n a` is cut off after `n` nested calls.
-/

namespace GoRaml

/-- Heap and clone map (`map[int64]*BaseShape`). -/
structure CSt where
  h : St
  memo : List (Int × Addr)

/-- `clonedMap[id]`. -/
def memoGet (m : List (Int × Addr)) (i : Int) : Option Addr :=
  match m with
  | [] => none
  | (j, c) :: rest => if j = i then some c else memoGet rest i

/-- `clonedMap[id] = c` (only executed when the key is absent, shape.go:333-338). -/
def memoPut (i : Int) (c : Addr) : M CSt Unit := fun s => (.ok (), { s with memo := (i, c) :: s.memo })

/-- Run a heap operation inside a cloning computation. -/
def onHeap {α : Type} (m : M St α) : M CSt α := fun s =>
  let r := m s.h
  (r.1, { s with h := r.2 })

/-- complex.go:358-365: entries of a property map with cloned bases (keys of an ordered map are distinct,
so setting them in order keeps the list). -/
def cloneProps (rec : Addr → M CSt Addr) (ps : OMap Property) : M CSt (OMap Property) :=
  M.collect (fun kp => M.bind (rec kp.2.base) fun b => M.ret (kp.1, { kp.2 with base := b })) ps

/-- complex.go:366-373: the same for pattern properties. -/
def clonePatProps (rec : Addr → M CSt Addr) (ps : OMap PatternProperty) :
    M CSt (OMap PatternProperty) :=
  M.collect (fun kp => M.bind (rec kp.2.base) fun b => M.ret (kp.1, { kp.2 with base := b })) ps

/-- `if p != nil { p' = f(p) }`. -/
def optM {σ α β : Type} (f : α → M σ β) : Option α → M σ (Option β)
  | none => M.ret none
  | some a => M.bind (f a) fun b => M.ret (some b)

/-- A property map behind a pointer. -/
def clonePropMap (rec : Addr → M CSt Addr) (i : Nat) : M CSt Nat := fun s =>
  (M.bind (cloneProps rec (s.h.props (some i))) fun ps => onHeap (Heap.newProps ps)) s

/-- A pattern property map behind a pointer. -/
def clonePatPropMap (rec : Addr → M CSt Addr) (i : Nat) : M CSt Nat := fun s =>
  (M.bind (clonePatProps rec (s.h.patProps (some i))) fun ps => onHeap (Heap.newPatProps ps)) s

/-- A slice of base shapes (shape.go:362-367, complex.go:824-832). -/
def cloneSlice (rec : Addr → M CSt Addr) (i : Option Nat) : M CSt Nat := fun s =>
  (M.bind (M.collect rec (s.h.slice i)) fun l => onHeap (Heap.newSlice l)) s

/-- `Shape.clone`: array complex.go:50-57, object complex.go:355-375, union complex.go:824-832 (always allocates
the slice), recursive complex.go:1057-1061 (keeps `Head`); all other shapes are copied. -/
def cloneShape (rec : Addr → M CSt Addr) : Shape → M CSt Shape
  | .array f => M.bind (optM rec f.items) fun items => M.ret (.array { f with items })
  | .object f =>
    M.bind (optM (clonePropMap rec) f.properties) fun properties =>
    M.bind (optM (clonePatPropMap rec) f.patternProperties) fun patternProperties =>
    M.ret (.object { f with properties, patternProperties })
  | .union anyOf e => M.bind (cloneSlice rec anyOf) fun l => M.ret (.union (some l) e)
  | s => M.ret s

/-- shape.go:368-372: `Link`; a nil `Link.Shape` is a nil dereference. -/
def cloneLink (rec : Addr → M CSt Addr) (i : Nat) : M CSt Nat := fun s =>
  match s.h.dts[i]? with
  | none => (.panic "nil pointer dereference", s)
  | some d =>
    match d.shape with
    | none => (.panic "nil pointer dereference", s)
    | some a => (M.bind (rec a) fun c => onHeap (Heap.newDT { d with shape := some c })) s

/-- shape.go:340-373: everything after `clonedMap[s.ID] = &c`.  `s` is the original, `c` the copy. -/
def cloneFill (rec : Addr → M CSt Addr) (s : Base) (c : Addr) : M CSt Addr :=
  M.bind (fun t => onHeap (Heap.newFacets (t.h.facetMap s.facets)) t) fun fm =>
  M.bind (fun t => (M.bind (cloneProps rec (t.h.props s.facetDefs)) fun ps =>
    onHeap (Heap.newProps ps)) t) fun fd =>
  M.bind (optM rec s.alias) fun alias =>
  M.bind (optM (fun i => cloneSlice rec (some i)) s.inherits) fun inherits =>
  M.bind (optM (cloneLink rec) s.link) fun link =>
  match s.shape with
  | none => M.panic "nil pointer dereference"
  | some sh =>
    M.bind (cloneShape rec sh) fun sh' =>
    M.bind (onHeap (Heap.updBase c fun _ =>
      { s with facets := some fm, facetDefs := some fd, alias, inherits, link, shape := some sh' })) fun _ =>
    M.ret c

/-- shape.go:332-376 `BaseShape.clone`. -/
def clone : Nat → Addr → M CSt Addr
  | 0, _ => M.diverge
  | n + 1, a =>
    M.bind (onHeap (Heap.getBase a)) fun s =>
    M.bind M.get fun t =>
    match memoGet t.memo s.id with
    | some c => M.ret c
    | none =>
      M.bind (onHeap (Heap.newBase s)) fun c =>
      M.bind (memoPut s.id c) fun _ =>
      cloneFill (clone n) s c

/-- shape.go:328-330 `CloneDetached`. -/
def cloneDetached (n : Nat) (a : Addr) : M St Addr := fun h =>
  let r := clone n a ⟨h, []⟩
  (r.1, r.2.h)

/-- shape.go:317-319 `Clone`, called on each element of `l` in turn with one clone map that was empty at first. -/
def cloneMany (n : Nat) (l : List Addr) : M St (List Addr) := fun h =>
  let r := M.collect (clone n) l ⟨h, []⟩
  (r.1, r.2.h)

end GoRaml
