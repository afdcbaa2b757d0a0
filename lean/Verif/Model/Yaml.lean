import Verif.Model.Go

/-!
# YAML nodes (gopkg.in/yaml.v3 `yaml.Node`)

The code reads the kind, the tag, the value and the children of a node.  Positions, styles, anchors and comments are left out.
-/

namespace GoRaml

/-- `yaml.Kind`.  `zero` is the kind of a node that was not set. -/
inductive YKind where
  | zero
  | document
  | sequence
  | mapping
  | scalar
  | alias
  deriving Repr, DecidableEq

/-- `yaml.Node`. -/
inductive YNode where
  | mk (kind : YKind) (tag value : String) (content : List YNode)
  deriving Repr

namespace YNode

/-- `node.Kind`. -/
def kind : YNode → YKind
  | mk k _ _ _ => k

/-- `node.Tag`. -/
def tag : YNode → String
  | mk _ t _ _ => t

/-- `node.Value`. -/
def value : YNode → String
  | mk _ _ v _ => v

/-- `node.Content`. -/
def content : YNode → List YNode
  | mk _ _ _ c => c

/-- A string scalar. -/
def str (s : String) : YNode := mk .scalar "!!str" s []

end YNode

end GoRaml
