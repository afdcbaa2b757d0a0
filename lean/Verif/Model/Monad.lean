import Verif.Model.Heap

/-!
# Stateful Go code

A Go function that mutates the heap is a function from the state to an outcome and a state.  The state is kept when the
function returns an error.
-/

namespace GoRaml

/-- A stateful Go computation. -/
def M (σ α : Type) : Type := σ → Out α × σ

namespace M

variable {σ α β : Type}

/-- `return a, nil`. -/
def ret (a : α) : M σ α := fun s => (.ok a, s)

/-- Sequencing with Go's `if err != nil { return err }`. -/
def bind (m : M σ α) (f : α → M σ β) : M σ β := fun s =>
  match m s with
  | (.ok a, s') => f a s'
  | (.err e, s') => (.err e, s')
  | (.panic e, s') => (.panic e, s')
  | (.diverge, s') => (.diverge, s')

instance : Monad (M σ) where
  pure := ret
  bind := bind

/-- `return nil, err`. -/
def err (e : String) : M σ α := fun s => (.err e, s)

/-- A run-time panic. -/
def panic (e : String) : M σ α := fun s => (.panic e, s)

/-- Out of fuel. -/
def diverge : M σ α := fun s => (.diverge, s)

/-- A stateless outcome. -/
def lift (o : Out α) : M σ α := fun s => (o, s)

/-- Read the state. -/
def get : M σ σ := fun s => (.ok s, s)

/-- Change the state. -/
def modify (f : σ → σ) : M σ Unit := fun s => (.ok (), f s)

/-- `x, err := f(); if err != nil { … } else { … }`: the error becomes a value. -/
def attempt (m : M σ α) : M σ (Except String α) := fun s =>
  match m s with
  | (.ok a, s') => (.ok (.ok a), s')
  | (.err e, s') => (.ok (.error e), s')
  | (.panic e, s') => (.panic e, s')
  | (.diverge, s') => (.diverge, s')

/-- A loop that stops at the first error. -/
def forEach (f : α → M σ Unit) : List α → M σ Unit
  | [] => ret ()
  | x :: xs => bind (f x) fun _ => forEach f xs

/-- A loop that collects one result per element. -/
def collect (f : α → M σ β) : List α → M σ (List β)
  | [] => ret []
  | x :: xs => bind (f x) fun y => bind (collect f xs) fun ys => ret (y :: ys)

end M

/-! ## Heap operations -/

namespace Heap

/-- Dereference a `*BaseShape`. -/
def getBase (a : Addr) : M St Base := fun h =>
  match h.base a with
  | some b => (.ok b, h)
  | none => (.panic "nil pointer dereference", h)

/-- The shape of a base; method calls on a nil `Shape` panic. -/
def getShape (a : Addr) : M St Shape := fun h =>
  match h.shapeAt a with
  | some s => (.ok s, h)
  | none => (.panic "nil pointer dereference", h)

/-- Assign fields of a base. -/
def updBase (a : Addr) (f : Base → Base) : M St Unit := fun h =>
  (.ok (), { h with bases := h.bases.modify a f })

/-- `&BaseShape{…}`. -/
def newBase (b : Base) : M St Addr := fun h =>
  (.ok h.bases.length, { h with bases := h.bases ++ [b] })

/-- `orderedmap.New[string, Property]` filled with the given entries. -/
def newProps (m : OMap Property) : M St Nat := fun h =>
  (.ok h.pmaps.length, { h with pmaps := h.pmaps ++ [m] })

/-- `orderedmap.New[string, PatternProperty]` filled with the given entries. -/
def newPatProps (m : OMap PatternProperty) : M St Nat := fun h =>
  (.ok h.ppmaps.length, { h with ppmaps := h.ppmaps ++ [m] })

/-- A new slice of base shapes. -/
def newSlice (l : List Addr) : M St Nat := fun h =>
  (.ok h.slices.length, { h with slices := h.slices ++ [l] })

/-- `orderedmap.New[string, *Node]` filled with the given entries. -/
def newFacets (m : OMap GoVal) : M St Nat := fun h =>
  (.ok h.fmaps.length, { h with fmaps := h.fmaps ++ [m] })

/-- A new `DataType`. -/
def newDT (d : DT) : M St Nat := fun h =>
  (.ok h.dts.length, { h with dts := h.dts ++ [d] })

/-- Store into an ordered map of properties. -/
def setProp (i : Nat) (k : String) (p : Property) : M St Unit := fun h =>
  (.ok (), { h with pmaps := h.pmaps.modify i fun m => OMap.set m k p })

/-- Store into an ordered map of pattern properties. -/
def setPatProp (i : Nat) (k : String) (p : PatternProperty) : M St Unit := fun h =>
  (.ok (), { h with ppmaps := h.ppmaps.modify i fun m => OMap.set m k p })

/-- Store into a map of custom facets. -/
def setFacet (i : Nat) (k : String) (v : GoVal) : M St Unit := fun h =>
  (.ok (), { h with fmaps := h.fmaps.modify i fun m => OMap.set m k v })

/-- shape.go:629-631 `generateShapeID`: `atomic.AddInt64(&r.idCounter, 1)`. -/
def newID : M St Int := fun h =>
  (.ok (h.idCounter + 1), { h with idCounter := h.idCounter + 1 })

end Heap

end GoRaml
