import Verif.Model.ExportLocation

/-!
# File names
-/

namespace EG

/-- The text is a path to a file: a directory, which is empty or ends in a slash, and a name without a slash. -/
structure PathTo (p dir name : List Char) : Prop where
  eq : p = dir ++ name
  dir : dir = [] ∨ ∃ d, dir = d ++ ['/']
  name : '/' ∉ name

/-- The file name has a proper stem before ".zip": not only dots. -/
def ZipName (name : List Char) : Prop := ∃ stem, name = stem ++ ".zip".toList ∧ ∃ c ∈ stem, c ≠ '.'

end EG
