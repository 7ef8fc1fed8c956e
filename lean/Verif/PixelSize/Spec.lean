import Verif.IntText.Spec
/-!
The textual representation of sizes and positions, and the lexicographical order.
-/
namespace Verif.PixelSize.Spec

/-- The decimal numeral of a number. -/
def decimal (v : Int) : List Char := (IntText.Spec.numeral false 10 1 v).map Char.ofNat

/-- The text is a decimal numeral, with an optional minus sign, for a number that is a value of type `int`. -/
def IsInt (I : Nat) (text : List Char) (v : Int) : Prop :=
  IntText.Spec.Denotes 10 false true (text.map Char.toNat) v ∧ -2 ^ I ≤ v ∧ v < 2 ^ I

/-- Two numerals that are separated by a comma. Space is allowed after the comma. -/
def IsPair (I : Nat) (text : List Char) (a b : Int) : Prop :=
  ∃ s t, ∃ n : Nat, text = s ++ ',' :: (List.replicate n ' ' ++ t) ∧ IsInt I s a ∧ IsInt I t b

/-- The lexicographical order. -/
def Before (a b : Int × Int) : Prop := a.1 < b.1 ∨ a.1 = b.1 ∧ a.2 < b.2

end Verif.PixelSize.Spec
