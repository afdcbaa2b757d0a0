import Verif.Model.Go

/-!
# Making shapes concurrently (shape.go:607-631, raml.go:152-154)

Callers run `MakeBaseShape` (shape.go:607-627) on one RAML value.  Its effects on the shared value are three steps: the atomic
increment of `idCounter` in `generateShapeID` (shape.go:629-631: `atomic.AddInt64`, one step), and `r.shapes = append(r.shapes, b)` in
`PutShape` (raml.go:152-154), which is not synchronised: a read and a write.  A schedule says whose step is next.  The counter is
an int64, that is a `BitVec 64`.
-/

namespace GoRaml

/-- Where a caller is. -/
inductive IdPc where
  | idle
  | got (id : BitVec 64)
  | loaded (id : BitVec 64) (shapes : List (BitVec 64))
  deriving DecidableEq

/-- The shared state, each caller's position, and the IDs handed out so far (a ghost variable). -/
structure IdSt where
  counter : BitVec 64 := 0
  shapes : List (BitVec 64) := []
  pcs : Nat → IdPc := fun _ => .idle
  issued : List (Nat × BitVec 64) := []

/-- One step of caller `c`. -/
def idStep (s : IdSt) (c : Nat) : IdSt :=
  let goto (pc : IdPc) : Nat → IdPc := fun d => if d = c then pc else s.pcs d
  match s.pcs c with
  | .idle =>
    let id := s.counter + 1
    { s with counter := id, pcs := goto (.got id), issued := s.issued ++ [(c, id)] }
  | .got id => { s with pcs := goto (.loaded id s.shapes) }
  | .loaded id l => { s with shapes := l ++ [id], pcs := goto .idle }

/-- The state after a schedule, from a new RAML value. -/
def idRun (sched : List Nat) : IdSt := sched.foldl idStep {}

end GoRaml
