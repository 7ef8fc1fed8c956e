import Verif.AsInt.Spec
/-!
What a code point is, and the textual representation of a range of code points, independently of the model.
-/
namespace Verif.CodePoint.Spec
open Verif.Integer

/-- The integers that are code points: every value of an unsigned integer type of the specified width other than the largest one. -/
def Valid (W : Nat) (v : Int) : Prop := 0 ≤ v ∧ v < 2 ^ W - 1

/-- The text is a decimal numeral, without a sign, for a code point. -/
def IsCodePoint (W : Nat) (text : List Char) (v : Int) : Prop := AsInt.Spec.IsInt ⟨false, W⟩ 10 text v ∧ Valid W v

/-- The text is a code point, or it is two code points in order, with a dash between them. -/
inductive IsRange (W : Nat) : List Char → Int × Int → Prop
  | single (text : List Char) (v : Int) : IsCodePoint W text v → IsRange W text (v, v)
  | pair (s t : List Char) (a b : Int) : IsCodePoint W s a → IsCodePoint W t b → a ≤ b → IsRange W (s ++ '-' :: t) (a, b)

end Verif.CodePoint.Spec
