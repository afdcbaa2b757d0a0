import Verif.Model.Alias

/-!
# Unwrapping (unwrap.go:286-459)

`unwrap n a` is the call `r.UnwrapShape(a)`, cut off after `n` nested calls.  Hooks are left out (they have their own
model).  Loops over ordered maps visit the entries by position and read the map again at each step, so entries appended
by nested calls are visited as in Go; such a loop is cut off after `n` steps too.
-/

namespace GoRaml

namespace Heap

/-- raml.go:152-154 `PutShape`. -/
def putShape (a : Addr) : M St Unit := fun h => (.ok (), { h with shapes := h.shapes ++ [a] })

/-- `pair.Value = p` for the entry at position `k` (`Set` of a key that is present changes the entry in place, and keys
are distinct). -/
def setPropAt (i k : Nat) (p : String × Property) : M St Unit := fun h =>
  (.ok (), { h with pmaps := h.pmaps.modify i fun m => (List.set m k p : List _) })

/-- The same for pattern properties. -/
def setPatPropAt (i k : Nat) (p : String × PatternProperty) : M St Unit := fun h =>
  (.ok (), { h with ppmaps := h.ppmaps.modify i fun m => (List.set m k p : List _) })

/-- `s[k] = a`. -/
def setSliceAt (i k : Nat) (a : Addr) : M St Unit := fun h =>
  (.ok (), { h with slices := h.slices.modify i fun l => l.set k a })

end Heap

/-- unwrap.go:288-297: the loop over the properties of the map at `i`, from position `k` on. -/
def unwrapProps (rec : Addr → M St Addr) (i : Nat) : Nat → Nat → M St Unit
  | 0, _ => M.diverge
  | n + 1, k => fun h =>
    match (h.props (some i))[k]? with
    | none => (.ok (), h)
    | some kp =>
      (M.bind (rec kp.2.base) fun us =>
      M.bind (Heap.setPropAt i k (kp.1, { kp.2 with base := us })) fun _ => unwrapProps rec i n (k + 1)) h

/-- unwrap.go:299-310: the loop over the pattern properties. -/
def unwrapPatProps (rec : Addr → M St Addr) (i : Nat) : Nat → Nat → M St Unit
  | 0, _ => M.diverge
  | n + 1, k => fun h =>
    match (h.patProps (some i))[k]? with
    | none => (.ok (), h)
    | some kp =>
      (M.bind (rec kp.2.base) fun us =>
      M.bind (Heap.setPatPropAt i k (kp.1, { kp.2 with base := us })) fun _ => unwrapPatProps rec i n (k + 1)) h

/-- unwrap.go:328-335: the loop over the union members in the slice at `i`, from position `k` on. -/
def unwrapMembers (rec : Addr → M St Addr) (i : Nat) : Nat → Nat → M St Unit
  | 0, _ => M.diverge
  | n + 1, k => fun h =>
    match (h.slice (some i))[k]? with
    | none => (.ok (), h)
    | some m =>
      (M.bind (rec m) fun us =>
      M.bind (Heap.setSliceAt i k us) fun _ => unwrapMembers rec i n (k + 1)) h

/-- `if p != nil { … }`. -/
def whenSome {σ α : Type} (p : Option α) (f : α → M σ Unit) : M σ Unit :=
  match p with
  | none => M.ret ()
  | some a => f a

/-- unwrap.go:376-392, 286-337 `UnwrapTarget`, by dynamic type; `s` is the shape of `a`. -/
def unwrapTargetShape (rec : Addr → M St Addr) (n : Nat) (a : Addr) (s : Option Shape) : M St Unit :=
  match s with
  | some (.array f) =>
    whenSome f.items fun i => M.bind (rec i) fun us => fun h' => setArray a { arrayAt h' a with items := some us } h'
  | some (.object f) =>
    M.bind (whenSome f.properties fun i => unwrapProps rec i n 0) fun _ => fun h' =>
      whenSome (objectAt h' a).patternProperties (fun i => unwrapPatProps rec i n 0) h'
  | some (.union anyOf _) => whenSome anyOf fun i => unwrapMembers rec i n 0
  | _ => M.ret ()

/-- unwrap.go:430: `UnwrapTarget(s)`.  Simplification: Go holds the shape object read before the parents were unwrapped;
the model reads the shape of `a` again (they differ only if unwrapping the parents replaced the shape of `a`, which needs
a cyclic type). -/
def unwrapTarget (rec : Addr → M St Addr) (n : Nat) (a : Addr) : M St Unit :=
  M.bind M.get fun h => unwrapTargetShape rec n a (h.shapeAt a)

/-- unwrap.go:359-370: the further parents, at positions `k`, `k+1`, … of the slice at `i`; `ss` is the first parent. -/
def unwrapMoreParents (rec : Addr → M St Addr) (n : Nat) (ss : Addr) (i : Nat) : Nat → Nat → M St Unit
  | 0, _ => M.ret ()
  | left + 1, k => fun h =>
    match (h.slice (some i))[k]? with
    | none => (.ok (), h)
    | some p =>
      (M.bind (rec p) fun us =>
      M.bind (inherit n ss us) fun us' =>
      M.bind (Heap.setSliceAt i k us') fun _ => unwrapMoreParents rec n ss i left (k + 1)) h

/-- unwrap.go:339-374 `unwrapParents`.  A nil `Link.Shape` is dereferenced by `UnwrapShape`. -/
def unwrapParents (rec : Addr → M St Addr) (n : Nat) (a : Addr) : M St (Option Addr) :=
  M.bind (Heap.getBase a) fun b => fun h =>
  match b.link with
  | some d =>
    match (h.dts[d]?).bind (·.shape) with
    | none => (.panic "nil pointer dereference", h)
    | some x =>
      (M.bind (rec x) fun us =>
      M.bind (Heap.updBase a fun y => { y with link := none }) fun _ => M.ret (some us)) h
  | none =>
    match b.inherits, h.slice b.inherits with
    | some i, p :: ps =>
      (M.bind (rec p) fun ss =>
      M.bind (Heap.setSliceAt i 0 ss) fun _ =>
      M.bind (unwrapMoreParents rec n ss i ps.length 1) fun _ => M.ret (some ss)) h
    | _, _ => (.ok none, h)

/-- unwrap.go:435-446: the loop over the custom facet definitions of `a`, whose map is at `i`.  The definitions of each
facet type are reset to a new map before the entry is stored in the (current) map of `a`. -/
def unwrapFacetDefs (rec : Addr → M St Addr) (a : Addr) (i : Nat) : Nat → Nat → M St Unit
  | 0, _ => M.diverge
  | n + 1, k => fun h =>
    match (h.props (some i))[k]? with
    | none => (.ok (), h)
    | some kp =>
      (M.bind (rec kp.2.base) fun us =>
      M.bind (Heap.newProps []) fun j =>
      M.bind (Heap.updBase us fun y => { y with facetDefs := some j }) fun _ =>
      M.bind (Heap.getBase a) fun b =>
      M.bind (whenSome b.facetDefs fun i' => Heap.setProp i' kp.1 { kp.2 with base := us }) fun _ =>
      unwrapFacetDefs rec a i n (k + 1)) h

/-- unwrap.go:448-458: inherit from the source, register the result. -/
def unwrapFinish (n : Nat) (a : Addr) (source : Option Addr) : M St Addr :=
  M.bind (match source with
    | none => M.ret a
    | some s => inherit n a s) fun r =>
  M.bind (Heap.putShape r) fun _ => M.ret r

/-- unwrap.go:398-459 `UnwrapShape`. -/
def unwrap : Nat → Addr → M St Addr
  | 0, _ => M.diverge
  | n + 1, a =>
    M.bind (Heap.getBase a) fun b =>
    match b.shape with
    | none => M.err "shape is nil"
    | some _ =>
      if b.unwrapped then M.ret a
      else
        M.bind (Heap.updBase a fun y => { y with unwrapped := true }) fun _ =>
        match b.alias with
        | some t =>
          M.bind (unwrap n t) fun us =>
          M.bind (Heap.putShape a) fun _ => aliasTo a us
        | none =>
          M.bind (unwrapParents (unwrap n) n a) fun source =>
          M.bind (unwrapTarget (unwrap n) n a) fun _ =>
          M.bind (Heap.getBase a) fun b' =>
          M.bind (whenSome b'.facetDefs fun i => unwrapFacetDefs (unwrap n) a i n 0) fun _ =>
          unwrapFinish n a source

end GoRaml
