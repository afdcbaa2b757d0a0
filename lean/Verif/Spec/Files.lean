import Verif.Model.UnwrapAll

/-!
# File systems
-/

namespace GoRaml.Spec

/-- Every file of the first file system is in the second one, with the same content. -/
def FilesOf (small large : String → Option String) : Prop := ∀ path text, small path = some text → large path = some text

end GoRaml.Spec
