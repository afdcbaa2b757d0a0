import Verif.Model.YamlError

/-!
# Which YAML errors an error has inside
-/

namespace GoRaml.Spec

open GoRaml

/-- The error has `y` inside, at any depth, or is `y`. -/
inductive Inside : GoError → GoError → Prop where
  | self {y} : Inside y y
  | wrap {t e y} : Inside e y → Inside (.wrap t e) y
  | join {t es e y} : e ∈ es → Inside e y → Inside (.join t es) y

/-- No type error of the YAML decoder is inside. -/
def NoTypeError (e : GoError) : Prop := ∀ es, ¬ Inside e (.type es)

end GoRaml.Spec
