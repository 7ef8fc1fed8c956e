import Mathlib.Data.Int.Bitwise

/-!
# What a value of a wide integer type with two's complement representation means

Independent of the model.
-/

namespace Verif.SuperInt.Spec

/-- The number represented by `N` value bits and a sign bit. -/
def number (N : Nat) (value : Nat) (sign : Bool) : Int := value - (if sign then 2 ^ N else 0)

/-- The number is representable with `N` value bits and a sign bit. -/
def Representable (N : Nat) (x : Int) : Prop := -2 ^ N ≤ x ∧ x < 2 ^ N

/-- `y` is the representable number that `x` is reduced to when the representation is reduced to `N` value
bits and a sign bit. -/
def IsWrap (N : Nat) (x y : Int) : Prop := Representable N y ∧ ∃ k : Int, y = x + k * 2 ^ (N + 1)

/-- The quotient of a division with truncation towards zero: `x = q * y + r` where the remainder is smaller
in magnitude than the divisor, and has the sign of the dividend. -/
def IsQuotRem (x y q r : Int) : Prop := x = q * y + r ∧ r.natAbs < y.natAbs ∧ 0 ≤ x * r

end Verif.SuperInt.Spec
