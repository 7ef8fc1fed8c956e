/-!
Names, and the text that is consumed when a name is read from a stream.
-/
namespace Verif.Enum.Spec

/-- Two names are the same, possibly up to the case of letters. -/
def Same (ignoreCase : Bool) (a b : List Char) : Prop := if ignoreCase then a.map Char.toUpper = b.map Char.toUpper else a = b

/-- The longest sequence of letters, digits, and underscores at the beginning of a text. -/
def IsWord (alnum : Char → Bool) (data word rest : List Char) : Prop :=
  data = word ++ rest ∧ (∀ c ∈ word, alnum c = true ∨ c = '_') ∧ ∀ c, rest.head? = some c → ¬(alnum c = true ∨ c = '_')

end Verif.Enum.Spec
