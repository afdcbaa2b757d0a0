import Verif.Model.Monad

/-!
# Hooks (raml.go:37-100)

The hooks of a key are a Go slice stored in the context.  Slices share arrays, so both are modelled: an array is a list of
cells, a slice is an array and a length (all slices here start at the beginning of their array).
-/

namespace GoRaml

/-- A hook function value: `code` is what `reflect.ValueOf(h).Pointer()` yields, `id` tells function values (closures) with the
same code apart.  A nil function is `none` in the cells. -/
structure Hook where
  code : Nat
  id : Nat
  deriving DecidableEq, Repr

/-- A slice of hooks. -/
structure HookSlice where
  arr : Nat
  len : Nat
  deriving DecidableEq, Repr

/-- The arrays, and the slice stored in the context for each key. -/
structure HookSt where
  arrs : List (List (Option Hook)) := []
  keys : OMap HookSlice := []
  deriving Repr, DecidableEq

namespace HookSt

/-- The cells of an array. -/
def arr (s : HookSt) (i : Nat) : List (Option Hook) := s.arrs.getD i []

/-- The elements of a slice. -/
def elems (s : HookSt) (x : HookSlice) : List (Option Hook) := (s.arr x.arr).take x.len

/-- A new array. -/
def alloc (s : HookSt) (l : List (Option Hook)) : Nat × HookSt := (s.arrs.length, { s with arrs := s.arrs ++ [l] })

/-- Overwrite an array. -/
def put (s : HookSt) (i : Nat) (l : List (Option Hook)) : HookSt := { s with arrs := s.arrs.set i l }

/-- raml.go:37-49 `getHooks`: an empty new slice if nothing is stored. -/
def getHooks (s : HookSt) (key : String) : HookSlice × HookSt :=
  match OMap.get s.keys key with
  | some x => (x, s)
  | none =>
    let (i, s') := s.alloc []
    (⟨i, 0⟩, s')

/-- raml.go:51-56 `setHooks` (`context.WithValue`: the new value shadows the old one for this key only). -/
def setHooks (s : HookSt) (key : String) (x : HookSlice) : HookSt := { s with keys := OMap.set s.keys key x }

/-- Go's `append(x, v...)`: in place if the array has room, else into a new array with `spare` unused cells. -/
def append (spare : Nat) (s : HookSt) (x : HookSlice) (v : List (Option Hook)) : HookSlice × HookSt :=
  let cells := s.arr x.arr
  if x.len + v.length ≤ cells.length then
    (⟨x.arr, x.len + v.length⟩, s.put x.arr (cells.take x.len ++ v ++ cells.drop (x.len + v.length)))
  else
    let (i, s') := s.alloc (cells.take x.len ++ v ++ List.replicate spare none)
    (⟨i, x.len + v.length⟩, s')

/-- raml.go:58-62 `AppendHook`. -/
def appendHook (spare : Nat) (key : String) (h : Option Hook) (s : HookSt) : HookSt :=
  let (x, s) := s.getHooks key
  let (y, s) := append spare s x [h]
  s.setHooks key y

/-- raml.go:64-68 `PrependHook`: `append([]HookFunc{hook}, hooks...)`.  The elements are read before the new array is made. -/
def prependHook (spare : Nat) (key : String) (h : Option Hook) (s : HookSt) : HookSt :=
  let (x, s) := s.getHooks key
  let v := s.elems x
  let (i, s) := s.alloc [h]
  let (y, s) := append spare s ⟨i, 1⟩ v
  s.setHooks key y

/-- `reflect.ValueOf(h).Pointer()`: 0 for a nil function. -/
def codeOf : Option Hook → Option Nat
  | none => none
  | some h => some h.code

/-- raml.go:70-79 `RemoveHook`: the first element with the same code is removed by shifting the rest, in place. -/
def removeHook (key : String) (h : Option Hook) (s : HookSt) : HookSt :=
  let (x, s) := s.getHooks key
  match (s.elems x).findIdx? (fun g => codeOf g = codeOf h) with
  | none => s.setHooks key x
  | some i =>
    let rest := (s.elems x).drop (i + 1)
    let (y, s) := append 0 s ⟨x.arr, i⟩ rest
    s.setHooks key y

/-- raml.go:81-83 `ClearHooks`. -/
def clearHooks (key : String) (s : HookSt) : HookSt :=
  let (i, s') := s.alloc []
  s'.setHooks key ⟨i, 0⟩

/-- A call of the hook API. -/
inductive Op where
  | append (key : String) (h : Option Hook) (spare : Nat)
  | prepend (key : String) (h : Option Hook) (spare : Nat)
  | remove (key : String) (h : Option Hook)
  | clear (key : String)

/-- Its effect. -/
def Op.run : Op → HookSt → HookSt
  | .append k h n => appendHook n k h
  | .prepend k h n => prependHook n k h
  | .remove k h => removeHook k h
  | .clear k => clearHooks k

/-- What a hook does when it is called in a state: calls of the hook API, in order, and the error it returns, if any. -/
abbrev Behaviour := Hook → HookSt → List Op × Option String

/-- raml.go:90-98: the loop of `callHooks` from index `i` on; `left` elements remain.  The slice is evaluated once; each element
is read when its turn comes.  The result: the hooks called, in order, the error returned, the state. -/
def callLoop (beh : Behaviour) (x : HookSlice) : Nat → Nat → HookSt → List Hook × Option String × HookSt
  | 0, _, s => ([], none, s)
  | left + 1, i, s =>
    match (s.arr x.arr)[i]? with
    | some (some h) =>
      let (ops, e) := beh h s
      let s' := ops.foldl (fun s o => o.run s) s
      match e with
      | some m => ([h], some m, s')
      | none =>
        let (hs, r, s'') := callLoop beh x left (i + 1) s'
        (h :: hs, r, s'')
    | _ => callLoop beh x left (i + 1) s

/-- raml.go:85-98 `callHooks`. -/
def callHooks (beh : Behaviour) (key : String) (s : HookSt) : List Hook × Option String × HookSt :=
  let (x, s) := s.getHooks key
  callLoop beh x x.len 0 s

end HookSt

end GoRaml
