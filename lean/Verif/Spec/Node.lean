import Verif.Model.Yaml
import Mathlib.Data.List.Forall2

/-!
# What value a YAML tree stands for

Written without reference to the conversion functions.  `lit` gives the values of scalars that are neither strings, time stamps nor includes (YAML's own
decoding of numbers, booleans, null and so on); `inc` gives the values of included files.
-/

namespace GoRaml.Spec

/-- The keys of a mapping: its children at even positions. -/
def mapKeys : List YNode → List String
  | k :: _ :: rest => k.value :: mapKeys rest
  | _ => []

/-- The values of a mapping: its children at odd positions. -/
def mapValues : List YNode → List YNode
  | _ :: v :: rest => v :: mapValues rest
  | _ => []

/-- `m` holds, for every key, the value of its last occurrence in `l`, and no other key; every key is in `m` once. -/
structure IsMapOf {α : Type} (l : List (String × α)) (m : List (String × α)) : Prop where
  nodup : (m.map (·.1)).Nodup
  last : ∀ k v, (k, v) ∈ m ↔ ∃ pre post, l = pre ++ (k, v) :: post ∧ k ∉ post.map (·.1)

/-- `Denotes lit inc n v`: the node `n` stands for the value `v`. -/
inductive Denotes (lit : YNode → GoVal → Prop) (inc : String → GoVal → Prop) : YNode → GoVal → Prop where
  /-- A document stands for its content. -/
  | document (tag value : String) (n : YNode) (rest : List YNode) (v : GoVal) :
      Denotes lit inc n v → Denotes lit inc (.mk .document tag value (n :: rest)) v
  /-- A string and a time stamp stand for their text. -/
  | text (tag value : String) (content : List YNode) : tag = "!!str" ∨ tag = "!!timestamp" →
      Denotes lit inc (.mk .scalar tag value content) (.str value)
  /-- An include stands for the content of the file. -/
  | «include» (value : String) (content : List YNode) (v : GoVal) : inc value v →
      Denotes lit inc (.mk .scalar "!include" value content) v
  /-- Any other scalar is decoded by YAML's rules. -/
  | scalar (tag value : String) (content : List YNode) (v : GoVal) : tag ∉ ["!!str", "!!timestamp", "!include"] →
      lit (.mk .scalar tag value content) v → Denotes lit inc (.mk .scalar tag value content) v
  /-- A sequence stands for the array of what its items stand for, in order. -/
  | sequence (tag value : String) (content : List YNode) (vs : List GoVal) :
      List.Forall₂ (Denotes lit inc) content vs → Denotes lit inc (.mk .sequence tag value content) (.arr vs)
  /-- A mapping stands for the map from its keys to what their values stand for, the last occurrence of a key deciding. -/
  | mapping (tag value : String) (content : List YNode) (vs : List GoVal) (m : List (String × GoVal)) :
      content.length % 2 = 0 → List.Forall₂ (Denotes lit inc) (mapValues content) vs →
      IsMapOf ((mapKeys content).zip vs) m → Denotes lit inc (.mk .mapping tag value content) (.map m)

/-- `NodePart n m`: `m` is a node the value of `n` is made from (keys of mappings are not). -/
inductive NodePart : YNode → YNode → Prop where
  | refl (n : YNode) : NodePart n n
  | document (tag value : String) (n : YNode) (rest : List YNode) (m : YNode) :
      NodePart n m → NodePart (.mk .document tag value (n :: rest)) m
  | sequence (tag value : String) (content : List YNode) (n m : YNode) : n ∈ content → NodePart n m →
      NodePart (.mk .sequence tag value content) m
  | mapping (tag value : String) (content : List YNode) (n m : YNode) : n ∈ mapValues content → NodePart n m →
      NodePart (.mk .mapping tag value content) m

/-- A node that can be converted, apart from its parts. -/
def Readable (lit : YNode → GoVal → Prop) (inc : String → GoVal → Prop) (n : YNode) : Prop :=
  match n.kind with
  | .zero => False
  | .alias => False
  | .document => n.content ≠ []
  | .sequence => True
  | .mapping => n.content.length % 2 = 0
  | .scalar =>
    n.tag = "!!str" ∨ n.tag = "!!timestamp" ∨ (n.tag = "!include" ∧ ∃ v, inc n.value v) ∨
      (n.tag ∉ ["!!str", "!!timestamp", "!include"] ∧ ∃ v, lit n v)

/-- The entries of a mapping. -/
def mapEntries : List YNode → List (YNode × YNode)
  | k :: v :: rest => (k, v) :: mapEntries rest
  | _ => []

end GoRaml.Spec
