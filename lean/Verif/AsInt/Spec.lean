import Verif.IntText.Spec
/-!
The textual representation of integers, and the text that is consumed when an integer is read from a stream.
-/
namespace Verif.AsInt.Spec
open Verif.Integer

/-- The numeral of a number with at least one digit. -/
def numeral (radix : Nat) (v : Int) : List Char := (IntText.Spec.numeral false radix 1 v).map Char.ofNat

/-- The text is a numeral, with an optional minus sign if the type is a signed one, for a number that is a value of the type. -/
def IsInt (T : Ty) (radix : Nat) (text : List Char) (v : Int) : Prop :=
  IntText.Spec.Denotes radix false T.signed (text.map Char.toNat) v ∧ Integer.Spec.Fits T v

/-- The text is a hexadecimal numeral after `0x` or `0X`, or it is an octal numeral that starts with `0`, or it is a decimal numeral that does
not. -/
inductive IsFlexInt (T : Ty) : List Char → Int → Prop
  | hex (x : Char) (text : List Char) (v : Int) : x = 'x' ∨ x = 'X' → IsInt T 16 text v → IsFlexInt T ('0' :: x :: text) v
  | oct (text : List Char) (v : Int) : IsInt T 8 ('0' :: text) v → IsFlexInt T ('0' :: text) v
  | dec (text : List Char) (v : Int) : text.head? ≠ some '0' → IsInt T 10 text v → IsFlexInt T text v

/-- An optional minus sign followed by letters, digits, and underscores. -/
def IsToken (alnum : Char → Bool) (text : List Char) : Prop :=
  ∃ sign word, text = sign ++ word ∧ (sign = [] ∨ sign = ['-']) ∧ ∀ c ∈ word, alnum c = true ∨ c = '_'

/-- The longest token at the beginning of a text. -/
def IsLongest (alnum : Char → Bool) (data token rest : List Char) : Prop :=
  data = token ++ rest ∧ IsToken alnum token ∧ ∀ token' rest', data = token' ++ rest' → IsToken alnum token' → token'.length ≤ token.length

end Verif.AsInt.Spec
