/-!
Names of tests and variables, and paths in directories.
-/
namespace Verif.TestPath.Spec

/-- There are no dots and no slashes in an identifier. -/
def Plain (s : List Char) : Prop := '.' ∉ s ∧ '/' ∉ s

/-- The path is that of a directory, or file, or it is the path of something in the directory. -/
def Within (p q : List (List Char)) : Prop := ∃ r, q = p ++ r

end Verif.TestPath.Spec
