import Verif.Model.Render
/-!
# Names of files
-/
namespace Verif

/-- `p` is a path to a file called `stem` with the extension `.ext`: the extension has no dot and no slash, and the last component of
the path does not consist of dots before it. -/
structure HasExtension (p stem ext : List Char) : Prop where
  split : p = stem ++ '.' :: ext
  plain : '.' ∉ ext ∧ '/' ∉ ext
  named : ∃ a c b, stem = a ++ c :: b ∧ c ≠ '.' ∧ '/' ∉ c :: b

/-- The file that Graphviz writes, by its documentation: the name with the format as its extension. `standard` is the format used
unless another one is asked for (`pdf`). -/
def Save.file (s : Save) (standard : String) : String := s.name ++ "." ++ s.format.getD standard

end Verif
