import Verif.Spec.Load
import Verif.Spec.Names

/-!
# Files that parse without panics

What a set of files has to look like, read off the files and the parsed YAML documents, independently of the loader.
-/

namespace GoRaml.Spec

/-- The file `p` is accepted as a fragment of kind `k`: its first line is the header of that kind, or it is a JSON file and a data type is wanted. -/
def OfKind (E : Env) (p : String) (k : FragmentKind) : Prop :=
  ∃ text, E.file p = some text ∧ ((k = .dataType ∧ ".json".toList <:+ p.toList) ∨
    ∃ pad rest : String, (∀ c ∈ pad.toList, c = ' ' ∨ c = '\r') ∧ text = header k ++ pad ++ "\n" ++ rest)

/-- The file `p` is not of another kind than `k`. -/
def OnlyKind (E : Env) (p : String) (k : FragmentKind) : Prop := ∀ k', OfKind E p k' → k' = k

/-- What every YAML tree looks like: mappings have as many values as keys, and documents have content. -/
def Shaped (v : YNode) : Prop := ∀ u, Within u v → (u.kind = .mapping → u.content.length % 2 = 0) ∧ (u.kind = .document → u.content ≠ [])

/-- A node in the file `loc` that is written where a type is expected.
* A name is not the word `composite`, and an included file is not a library or a named example.
* A list of parents is not empty.
* In a declaration the same holds for its type, its items, its properties and its facet declarations; facet declarations come in pairs of a key and a value;
  included examples are not in a library or a data type. -/
inductive TypeNode (E : Env) (loc : String) : YNode → Prop where
  | name {v : YNode} : v.kind = .scalar → (v.tag = "!!str" → v.value ≠ "composite") → (v.tag = "!include" → OnlyKind E (E.joinDir loc v.value) .dataType) → TypeNode E loc v
  | parents {v : YNode} : v.kind = .sequence → v.content ≠ [] → (∀ u ∈ v.content, u.kind = .scalar → TypeNode E loc u) → TypeNode E loc v
  | declaration {v : YNode} : v.kind = .mapping →
      (∀ k u, Entry k u v.content → k.value = "type" ∨ k.value = "items" → TypeNode E loc u) →
      (∀ k u k' u', Entry k u v.content → k.value = "properties" ∨ k.value = "facets" → Entry k' u' u.content → TypeNode E loc u') →
      (∀ k u, Entry k u v.content → k.value = "facets" → u.content.length % 2 = 0) →
      (∀ k u, Entry k u v.content → k.value = "examples" → u.tag = "!include" → OnlyKind E (E.joinDir loc u.value) .namedExample) → TypeNode E loc v
  | other {v : YNode} : v.kind ≠ .scalar → v.kind ≠ .sequence → v.kind ≠ .mapping → TypeNode E loc v

/-- The content of a library file `p`: its types are in order, and the files it uses are not of another kind. -/
structure LibraryNode (E : Env) (p : String) (n : YNode) : Prop where
  types : ∀ k v k' v', Entry k v n.content → k.value = "types" ∨ k.value = "annotationTypes" → Entry k' v' v.content → TypeNode E p v'
  uses : ∀ value, UsesValue n value → OnlyKind E (E.joinDir p value) .library

/-- The content of a data type file `p`: its type is in order, the entries of `uses` come in pairs, and the files it uses are not of another kind. -/
structure DataTypeNode (E : Env) (p : String) (n : YNode) : Prop where
  type : TypeNode E p n
  pairs : ∀ k v, Entry k v n.content → k.value = "uses" → v.content.length % 2 = 0
  uses : ∀ value, UsesValue n value → OnlyKind E (E.joinDir p value) .library

/-- Files in order.
* `yaml` is what the YAML decoder guarantees.
* No fragment is an empty document.
* Libraries and data types are in order.
* No JSON file consists of the word `composite`. -/
structure Orderly (E : Env) : Prop where
  yaml : ∀ text d, E.yamlParse text = some d → Shaped d
  notNull : ∀ p k d, OfKind E p k → Document E p d → (docRoot d).tag ≠ "!!null"
  library : ∀ p d, OfKind E p .library → Document E p d → LibraryNode E p (docRoot d)
  dataType : ∀ p d, OfKind E p .dataType → ¬ ".json".toList <:+ p.toList → Document E p d → DataTypeNode E p (docRoot d)
  json : ∀ p, ".json".toList <:+ p.toList → E.file p ≠ some "composite"

/-- A library or a data type that names a library which has not been loaded. -/
def Unlinked (s : St) : Prop :=
  (∃ l ∈ s.libs, ∃ k v, OMap.get l.uses k = some (v, none)) ∨ ∃ d ∈ s.dts, ∃ k v, OMap.get d.uses k = some (v, none)

end GoRaml.Spec
