import Verif.Model.Commons
import Verif.Model.Mark

/-!
# Validation of a whole model (validate.go:10-226)

The state is the heap and the cache of unwrapped copies.  Hooks are left out.  `ord` is as in `validateCommons`; `frags` is the order in
which `range r.fragmentsCache` visits the fragments.  Errors are collected: a step that fails does not stop the loop.
-/

namespace GoRaml

/-- The heap and `unwrapCache`. -/
structure VSt where
  h : St
  cache : List (Int × Addr) := []

/-- A computation on the heap. -/
def onSt {α : Type} (m : M St α) : M VSt α := fun s => ((m s.h).1, { s with h := (m s.h).2 })

/-- `if st == nil { st = se } else { st = st.Append(se) }` in a loop: every element is visited, and the loop fails if one of them does. -/
def M.tryEach {σ α : Type} (f : α → M σ Unit) : List α → M σ Unit
  | [] => M.ret ()
  | x :: xs =>
    M.bind (M.attempt (f x)) fun r =>
    M.bind (M.attempt (M.tryEach f xs)) fun rs =>
    match r, rs with
    | .ok _, .ok _ => M.ret ()
    | .error e, _ => M.err e
    | _, .error e => M.err e

/-- Run both, fail if one fails. -/
def M.tryBoth {σ : Type} (m m' : M σ Unit) : M σ Unit := M.tryEach id [m, m']

/-- validate.go:10-29 `unwrapShape`. -/
def unwrapCopy (n : Nat) (a : Addr) : M VSt Addr :=
  M.bind (onSt (Heap.getBase a)) fun b =>
  if b.unwrapped then M.ret a
  else
    M.bind (onSt (cloneDetached n a)) fun c =>
    M.bind (onSt (unwrap n c)) fun us =>
    M.bind (onSt (mark n us)) fun _ =>
    M.bind (onSt (Heap.getBase c)) fun c' =>
    M.bind (M.modify fun s => { s with cache := (c'.id, us) :: s.cache }) fun _ => M.ret us

/-- validate.go:43-70, 97-127: one type of a library, or `validateDataType`. -/
def validateType (E : Ext) (ord : OMap Property → OMap Property) (n : Nat) (a : Addr) : M VSt Unit :=
  M.bind (unwrapCopy n a) fun u =>
  M.bind M.get fun s =>
  M.bind (M.lift (check E s.h n u)) fun _ =>
  M.lift (validateCommons E s.h ord n u)

/-- validate.go:33-73 `validateTypes`. -/
def validateTypes (E : Ext) (ord : OMap Property → OMap Property) (n : Nat) (types : OMap Addr) : M VSt Unit :=
  M.tryEach (fun ka => validateType E ord n ka.2) types

/-- validate.go:79-93 `validateLibrary`. -/
def validateLibrary (E : Ext) (ord : OMap Property → OMap Property) (n : Nat) (l : Lib) : M VSt Unit :=
  M.tryBoth (validateTypes E ord n l.annotationTypes) (validateTypes E ord n l.types)

/-- validate.go:139-158: one fragment; a NamedExample is skipped. -/
def validateFragment (E : Ext) (ord : OMap Property → OMap Property) (n : Nat) (f : FragRef) : M VSt Unit := fun s =>
  match f with
  | .library i =>
    match s.h.libs[i]? with
    | none => (.panic "nil pointer dereference", s)
    | some l => validateLibrary E ord n l s
  | .dataType i =>
    match (s.h.dts[i]?).bind (·.shape) with
    | none => (.panic "nil pointer dereference", s)
    | some a => validateType E ord n a s
  | .namedExample _ => (.ok (), s)

/-- validate.go:134-160 `validateFragments`. -/
def validateFragments (E : Ext) (ord : OMap Property → OMap Property) (n : Nat) (frags : List FragRef) : M VSt Unit :=
  M.tryEach (validateFragment E ord n) frags

/-- validate.go:170-199: one annotation. -/
def validateDomainExtension (E : Ext) (n : Nat) (d : DomainExt) : M VSt Unit := fun s =>
  match d.definedBy.bind s.h.base, d.definedBy with
  | some b, some a =>
    if b.unwrapped then (validate E s.h n a d.value, s)
    else
      match memoGet s.cache b.id with
      | none => (.err "unwrapped shape not found", s)
      | some us => (validate E s.h n us d.value, s)
  | _, _ => (.panic "nil pointer dereference", s)

/-- validate.go:164-200 `validateDomainExtensions`. -/
def validateDomainExtensions (E : Ext) (n : Nat) : M VSt Unit := fun s =>
  M.tryEach (validateDomainExtension E n) s.h.domainExts s

/-- validate.go:206-223 `ValidateShapes`. -/
def validateShapes (E : Ext) (ord : OMap Property → OMap Property) (frags : List FragRef) (n : Nat) : M St Unit := fun h =>
  let r := M.tryBoth (validateFragments E ord n frags) (validateDomainExtensions E n) ⟨h, []⟩
  (r.1, r.2.h)

end GoRaml
