import Verif.Model.Resolve
import Verif.Spec.Inherit
import Mathlib.Logic.Relation

/-!
# What files refer to

Read off the parsed YAML documents, independently of the loader.
-/

namespace GoRaml.Spec

/-- A node in the tree of another. -/
inductive Within : YNode → YNode → Prop where
  | refl (v : YNode) : Within v v
  | step {t u v : YNode} : u ∈ v.content → Within t u → Within t v

/-- A key and its value in the content of a mapping. -/
inductive Entry (k v : YNode) : List YNode → Prop where
  | here {rest : List YNode} : Entry k v (k :: v :: rest)
  | there {a b : YNode} {rest : List YNode} : Entry k v rest → Entry k v (a :: b :: rest)

/-- Under its key `uses`, the mapping `n` has an entry with the given value. -/
def UsesValue (n : YNode) (value : String) : Prop :=
  ∃ k v k' v', Entry k v n.content ∧ k.value = "uses" ∧ Entry k' v' v.content ∧ v'.value = value

/-- The file `p` is the YAML document `d`. -/
def Document (E : Env) (p : String) (d : YNode) : Prop := ∃ text, E.file p = some text ∧ E.yamlParse text = some d

/-- Somewhere in the file `p` there is an `!include` of the file `q`. -/
def Includes (E : Env) (p q : String) : Prop := ∃ d t, Document E p d ∧ Within t d ∧ t.tag = "!include" ∧ q = E.joinDir p t.value

/-- The file `p` names the file `q` under `uses`. -/
def Uses (E : Env) (p q : String) : Prop := ∃ d v, Document E p d ∧ UsesValue (docRoot d) v ∧ q = E.joinDir p v

/-- The file `q` can be reached from the file `p` through `!include` and `uses`. -/
def LeadsTo (E : Env) : String → String → Prop := Relation.ReflTransGen fun p q => Includes E p q ∨ Uses E p q

/-- No file includes itself, directly or through other includes. -/
def NoIncludeCycle (E : Env) : Prop := ∀ p, ¬ Relation.TransGen (Includes E) p p

/-- From a file that is included, the file that includes it cannot be reached.  (Libraries may use each other in a cycle.) -/
def NoWayBack (E : Env) : Prop := ∀ p q, Includes E p q → ¬ LeadsTo E q p

/-- There are finitely many files. -/
def FinitelyManyFiles (E : Env) : Prop := ∃ files : List String, ∀ p, E.file p ≠ none → p ∈ files

/-! ## Types after resolution -/

/-- The base has a shape, and it is the kind of shape that its type names; it is not a reference left to resolve. -/
def Typed (b : Base) : Prop := ∃ sh, b.shape = some sh ∧ Kind sh = Kind (emptyShape b.type) ∧ Kind sh ≠ "unknown"

/-- The type at `a` is there, and it is resolved. -/
def Concrete (s : St) (a : Addr) : Prop := ∃ b, s.base a = some b ∧ Typed b

/-- How a type expression is laid out: `at_ plain a` at the base `a`, without facets of its own if `plain`; `members` as (the rest of) the members of
a union. -/
structure Layout where
  at_ : Prop → Addr → Prop
  members : List Addr → Prop

/-- As the only or last member of a union: one base. -/
def Layout.last (lo : Addr) (at_ : Prop → Addr → Prop) : Layout := ⟨at_, fun ms => ∃ m, ms = [m] ∧ lo ≤ m ∧ at_ True m⟩

/-- The type expression, read in the file `loc`, is laid out in the heap; the bases of its parts are at `lo` or above.
* A keyword is a shape of that kind without facets.
* A reference is an alias of the type it names, or inherits from it if there are facets.
* A group is what it encloses.
* `T?` is a union of `T` and nil, `T[]` an array of `T`, `A | B | C` a union with these members, in order. -/
def layout (s : St) (lo : Addr) (loc : String) : Rdt → Layout
  | .prim p => .last lo fun _ a => ∃ b, s.base a = some b ∧ Typed b ∧ b.type = p.text ∧ b.shape = some (emptyShape p.text)
  | .ref x y => .last lo fun plain a => ∃ b ref, s.base a = some b ∧ Typed b ∧ getReferenced s Lib.types (refText x y) loc = .ok ref ∧
      (plain → b.alias = some ref) ∧ (¬ plain → ref ∈ s.slice b.inherits)
  | .group e => .last lo (layout s lo loc e).at_
  | .optional e => .last lo fun _ a => ∃ b i m n bn, s.base a = some b ∧ Typed b ∧ b.shape = some (.union (some i) none) ∧ s.slice (some i) = [m, n] ∧
      lo ≤ m ∧ (layout s lo loc e).at_ True m ∧ lo ≤ n ∧ s.base n = some bn ∧ Typed bn ∧ bn.shape = some .nil
  | .array e => .last lo fun plain a => ∃ b f i, s.base a = some b ∧ Typed b ∧ b.shape = some (.array f) ∧ f.items = some i ∧ (plain → f = { items := some i }) ∧
      lo ≤ i ∧ (layout s lo loc e).at_ True i
  | .union l r =>
    let members := fun ms => ∃ m rest, ms = m :: rest ∧ lo ≤ m ∧ (layout s lo loc l).at_ True m ∧ (layout s lo loc r).members rest
    ⟨fun _ a => ∃ b i, s.base a = some b ∧ Typed b ∧ b.shape = some (.union (some i) none) ∧ members (s.slice (some i)), members⟩

end GoRaml.Spec
