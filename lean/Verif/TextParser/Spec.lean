import Verif.StringSplit.Spec
/-!
The correspondence between words and values.
-/
namespace Verif.TextParser.Spec

variable {C V : Type}

/-- The text of a word. -/
def wordText (s : List C) (w : Nat × Nat) : List C := (s.take w.2).drop w.1

/-- There is one word, and one value for each of the parsers, and each of the parsers gives the corresponding value for the corresponding
word. -/
def Reads (s : List C) (parsers : List (List C → Option V)) (words : List (Nat × Nat)) (vals : List V) : Prop :=
  words.length = parsers.length ∧ vals.length = parsers.length ∧
    ∀ (j : Nat) (p : List C → Option V) (w : Nat × Nat) (v : V), parsers[j]? = some p → words[j]? = some w → vals[j]? = some v → p (wordText s w) = some v

end Verif.TextParser.Spec
