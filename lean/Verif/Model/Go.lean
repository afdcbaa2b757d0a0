/-!
# Go values, outcomes and ordered maps

The part of Go's run-time behaviour the model relies on.
-/

namespace GoRaml

/-- Outcome of a Go call: a result, a returned error, a run-time panic, or no result
within the given fuel.  Error texts are kept only as short labels; wrapping of errors
(`StacktraceNewWrapped`, `fmt.Errorf`) is not modelled. -/
inductive Out (α : Type) where
  | ok (a : α)
  | err (msg : String)
  | panic (msg : String)
  | diverge
  deriving Repr, DecidableEq

namespace Out

/-- Go's `if err != nil { return err }` chaining. -/
def bind {α β : Type} : Out α → (α → Out β) → Out β
  | .ok a, f => f a
  | .err m, _ => .err m
  | .panic m, _ => .panic m
  | .diverge, _ => .diverge

instance : Monad Out where
  pure := .ok
  bind := bind

/-- Sequential loop that returns at the first outcome that is not `ok`
(a Go `for` loop whose body ends in `if err != nil { return err }`). -/
def forEach {α : Type} (f : α → Out Unit) : List α → Out Unit
  | [] => .ok ()
  | x :: xs => (f x).bind fun _ => forEach f xs

end Out

/-- A `float64`: NaN, the infinities and the finite values as rationals.  Only comparisons
are used by the code.  Negative zero is identified with zero (they compare equal in Go). -/
inductive F64 where
  | nan
  | ninf
  | fin (q : Rat)
  | pinf
  deriving Repr, DecidableEq

namespace F64

/-- Go's `<` on float64: false as soon as one side is NaN. -/
def lt : F64 → F64 → Bool
  | nan, _ => false
  | _, nan => false
  | ninf, ninf => false
  | ninf, _ => true
  | _, ninf => false
  | pinf, _ => false
  | fin _, pinf => true
  | fin a, fin b => decide (a < b)

/-- Go's `==` on float64: NaN differs from itself. -/
def eq : F64 → F64 → Bool
  | nan, _ => false
  | _, nan => false
  | a, b => decide (a = b)

end F64

/-- A Go value of type `any`, restricted to the dynamic types that YAML and JSON decoding
produce (plus `uint`, which API callers may pass).  A map is the list of its entries in the order in
which one particular `range` loop visits them; keys are distinct in a Go map. -/
inductive GoVal where
  | nil
  | bool (b : Bool)
  | int (i : Int)
  | uint (n : Nat)
  | uint64 (n : Nat)
  | float (f : F64)
  | str (s : String)
  | arr (l : List GoVal)
  | map (m : List (String × GoVal))
  deriving Repr

namespace GoVal

/-- Go's `==` on two `any` values: different dynamic types are unequal; two maps or two slices
panic ("comparing uncomparable type"). -/
def goEq : GoVal → GoVal → Out Bool
  | .nil, .nil => .ok true
  | .bool a, .bool b => .ok (a == b)
  | .int a, .int b => .ok (a == b)
  | .uint a, .uint b => .ok (a == b)
  | .uint64 a, .uint64 b => .ok (a == b)
  | .float a, .float b => .ok (F64.eq a b)
  | .str a, .str b => .ok (a == b)
  | .arr _, .arr _ => .panic "comparing uncomparable type []interface {}"
  | .map _, .map _ => .panic "comparing uncomparable type map[string]interface {}"
  | _, _ => .ok false

end GoVal

/-- `orderedmap.OrderedMap` (wk8/go-ordered-map v2): entries in insertion order. -/
abbrev OMap (α : Type) := List (String × α)

namespace OMap

/-- `OrderedMap.Get`. -/
def get {α : Type} (m : OMap α) (k : String) : Option α :=
  match m with
  | [] => none
  | (k', v) :: rest => if k' = k then some v else get rest k

/-- `OrderedMap.Set`: an existing key keeps its position and gets the new value; a new key goes last. -/
def set {α : Type} (m : OMap α) (k : String) (v : α) : OMap α :=
  match m with
  | [] => [(k, v)]
  | (k', v') :: rest => if k' = k then (k, v) :: rest else (k', v') :: set rest k v

/-- Keys in iteration order (`Oldest()` / `Next()`). -/
def keys {α : Type} (m : OMap α) : List String := m.map (·.1)

end OMap

/-- Functions of Go's standard library and of third-party packages that the code calls.  Every
theorem holds for every choice of these parameters unless it names a law. -/
structure Ext where
  /-- `regexp.Regexp.MatchString` for the expression compiled from the given source. -/
  reMatch : String → String → Bool
  /-- `regexp.Compile` succeeds. -/
  reCompiles : String → Bool
  /-- `time.Parse(layout, s)` returns no error. -/
  timeParse : String → String → Bool
  /-- `hashInterfaceFast` (complex.go:74-82): xxh3 of the JSON encoding, `none` if encoding fails. -/
  hash : GoVal → Option Nat
  /-- Go's `int64(f)` when the truncated value does not fit int64 (implementation defined). -/
  truncOverflow : F64 → BitVec 64
  /-- Go's `float64(n)` when |n| > 2^53 (rounding to nearest even). -/
  roundF64 : Int → F64
  /-- `json.Unmarshal` into `any` of a scalar that starts with `{`; `none` on error. -/
  jsonDecode : String → Option GoVal

/-- Go's `int64(f)`: truncation toward zero when the result fits int64. -/
def Ext.truncInt64 (E : Ext) : F64 → Int
  | .fin q =>
    let t := q.num.tdiv q.den
    if -(2 ^ 63 : Int) ≤ t ∧ t < 2 ^ 63 then t else (E.truncOverflow (.fin q)).toInt
  | f => (E.truncOverflow f).toInt

/-- Go's `float64(n)` for an int64 or uint64: exact up to 2^53 in absolute value. -/
def Ext.toF64 (E : Ext) (n : Int) : F64 :=
  if -(2 ^ 53 : Int) ≤ n ∧ n ≤ 2 ^ 53 then .fin n else E.roundF64 n

end GoRaml
