import Verif.Model.Heap
import Verif.Model.Names

/-!
# Specification of names and lookup (C35, C36, C43, C55)
-/

namespace GoRaml.Spec

open GoRaml

/-- `name` is `lib.ident` where `ident` has no dot. -/
def Dotted (name lib ident : String) : Prop := name = lib ++ "." ++ ident ∧ '.' ∉ ident.toList

/-- The library used under the alias `as` is loaded and is `lib`. -/
def UsedLib (h : St) (uses : OMap (String × Option Nat)) (as : String) (lib : Lib) : Prop :=
  ∃ path i, OMap.get uses as = some (path, some i) ∧ h.libs[i]? = some lib

/-- What a name means in a library: an own type of that name, else, for `alias.name`, a type of that name in the library used as
`alias`.  `sel` selects the types or the annotation types. -/
inductive LibMeans (h : St) (l : Lib) (sel : Lib → OMap Addr) (name : String) (r : Addr) : Prop
  | own : OMap.get (sel l) name = some r → LibMeans h l sel name r
  | used {alias ident : String} {lib : Lib} : OMap.get (sel l) name = none → Dotted name alias ident →
      UsedLib h l.uses alias lib → OMap.get (sel lib) ident = some r → LibMeans h l sel name r

/-- What a name means in a data type fragment, which has no types of its own. -/
inductive DTMeans (h : St) (d : DT) (sel : Lib → OMap Addr) (name : String) (r : Addr) : Prop
  | used {alias ident : String} {lib : Lib} : Dotted name alias ident → UsedLib h d.uses alias lib →
      OMap.get (sel lib) ident = some r → DTMeans h d sel name r

/-- Every used library has been loaded. -/
def AllLoaded (h : St) (uses : OMap (String × Option Nat)) : Prop :=
  ∀ as path link, OMap.get uses as = some (path, link) → ∃ i lib, link = some i ∧ h.libs[i]? = some lib

/-- The header of each kind of fragment. -/
def header : FragmentKind → String
  | .library => "#%RAML 1.0 Library"
  | .dataType => "#%RAML 1.0 DataType"
  | .namedExample => "#%RAML 1.0 NamedExample"

/-- The name is a pattern: `/…/`. -/
def PatternName (n p : String) : Prop := n = "/" ++ p ++ "/"

end GoRaml.Spec
