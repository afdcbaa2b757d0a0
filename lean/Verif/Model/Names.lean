import Verif.Model.Monad

/-!
# Names: splitting references, property names, fragment heads (common.go, fragment.go, complex.go, extension.go, parse.go)

Go strings are byte sequences and Lean strings are character sequences.  The functions on parts of strings are written for
lists over any type, so they cover bytes as well as characters; all separators in the code are ASCII.
-/

namespace GoRaml

/-- `strings.LastIndex`. -/
def lastIndex {α : Type} [DecidableEq α] (sep : List α) : List α → Option Nat
  | [] => if sep = [] then some 0 else none
  | c :: s =>
    match lastIndex sep s with
    | some i => some (i + 1)
    | none => if sep <+: c :: s then some 0 else none

/-- common.go:9-15 `CutLast`. -/
def cutLast {α : Type} [DecidableEq α] (s sep : List α) : List α × List α × Bool :=
  match lastIndex sep s with
  | none => (s, [], false)
  | some i => (s.take i, s.drop (i + sep.length), true)

/-- fragment.go:22-26 `CutReferenceName`. -/
def cutReferenceName (refName : String) : String × String × Bool :=
  let r := cutLast refName.toList ['.']
  (String.ofList r.1, String.ofList r.2.1, r.2.2)

/-- complex.go:740-746 `chompImplicitOptional`. -/
def chompImplicitOptional (nodeName : String) : String × Bool :=
  if nodeName.toList.getLast? = some '?' then (String.ofList nodeName.toList.dropLast, true) else (nodeName, false)

/-- complex.go:749-778: the part of `makeProperty` after the type of the property has been made; `shapeRequired` is its
`required` facet. -/
def nameProperty (nodeName propertyName : String) (hasImplicitOptional : Bool) (base : Addr)
    (shapeRequired : Option Bool) : Property :=
  match shapeRequired with
  | none => { name := propertyName, base, required := !hasImplicitOptional }
  | some r => { name := if hasImplicitOptional then nodeName else propertyName, base, required := r }

/-- complex.go:261: is it a pattern property? (`len > 1`, first and last byte `/`.) -/
def isPatternName (propertyName : String) : Bool :=
  decide (1 < propertyName.toList.length) && propertyName.toList.head? == some '/' &&
    propertyName.toList.getLast? == some '/'

/-- complex.go:729: `propertyName[1 : len(propertyName)-1]`. -/
def patternOf (propertyName : String) : String := String.ofList (propertyName.toList.drop 1).dropLast

/-- What one entry of `properties` declares. -/
inductive Declared where
  | property (p : Property)
  | pattern (key : String) (p : PatternProperty)

/-- complex.go:243-273 `unmarshalProperty`, complex.go:717-738 `makePatternProperty`, complex.go:749-778 `makeProperty`,
given the outcome of `makeNewShapeYAML` for the declared type: its base and its `required` facet. -/
def declareProperty (E : Ext) (nodeName : String) (made : Out (Addr × Option Bool)) : Out Declared :=
  let (propertyName, hasImplicitOptional) := chompImplicitOptional nodeName
  made.bind fun (base, shapeRequired) =>
  if isPatternName propertyName then
    if shapeRequired.isSome || hasImplicitOptional then .err "'required' facet is not supported on pattern property"
    else if E.reCompiles (patternOf propertyName) then .ok (.pattern propertyName { pattern := patternOf propertyName, base })
    else .err "compile pattern"
  else .ok (.property (nameProperty nodeName propertyName hasImplicitOptional base shapeRequired))

/-- extension.go:44-46 `IsCustomDomainExtensionNode`. -/
def isCustomDomainExtensionNode (name : String) : Bool :=
  name.toList.head? == some '(' && name.toList.getLast? == some ')'

/-- extension.go:23-27: `keyNode.Value[1 : len-1]`, an error if empty.  A key that is the single character `(` cannot get here, but
the slice `[1:0]` of a one-character key panics. -/
def annotationName (key : String) : Out String :=
  if key.toList.length < 2 then .panic "slice bounds out of range"
  else
    let name := (key.toList.drop 1).dropLast
    if name = [] then .err "annotation name must not be empty" else .ok (String.ofList name)

/-- `FragmentKind`. -/
inductive FragmentKind where
  | library
  | dataType
  | namedExample
  deriving Repr, DecidableEq

/-- `strings.TrimRight(s, cutset)`. -/
def trimRight {α : Type} (p : α → Bool) (s : List α) : List α := (s.reverse.dropWhile p).reverse

/-- `bufio.Reader.ReadString('\n')`: up to and including the first newline, an error if there is none. -/
def readLine : List Char → Option (List Char)
  | [] => none
  | c :: s => if c = '\n' then some ['\n'] else (readLine s).map (c :: ·)

/-- parse.go:19-33 `ReadHead` (errors of `Seek` are left out: files and strings are seekable). -/
def readHead (content : String) : Out String :=
  match readLine content.toList with
  | none => .err "read fragment head"
  | some l => .ok (String.ofList (trimRight (fun c => c = '\r' || c = '\n' || c = ' ') l))

/-- parse.go:36-47 `IdentifyFragment`. -/
def identifyFragment (head : String) : Out FragmentKind :=
  if head = "#%RAML 1.0 Library" then .ok .library
  else if head = "#%RAML 1.0 DataType" then .ok .dataType
  else if head = "#%RAML 1.0 NamedExample" then .ok .namedExample
  else .err "unknown fragment kind"

/-- parse.go:102-119 `CheckFragmentKind`. -/
def checkFragmentKind (path content : String) (kind : FragmentKind) : Out Unit :=
  if kind = .dataType ∧ ".json".toList <:+ path.toList then .ok ()
  else
    (readHead content).bind fun head =>
    (identifyFragment head).bind fun frag =>
    if frag ≠ kind then .err "unexpected fragment" else .ok ()

end GoRaml
