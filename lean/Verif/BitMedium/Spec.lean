import Verif.Integer.Spec
/-!
Values packed into integer types.
-/
namespace Verif.BitMedium.Spec
open Verif.Integer (Ty)

/-- The total number of bits of an integer type, the sign bit included. -/
def width (T : Ty) : Nat := if T.signed then T.bits + 1 else T.bits

/-- The packed form, in the integer type `T`, of the value `v`, which has `N` bits. The value itself, except that if the
most significant of the `N` bits coincides with the sign bit of the type, and that bit is set, then it is the negative number
that has the same bits in two's complement. -/
def packed (T : Ty) (N v : Nat) : Int :=
  if T.signed = true ∧ N = T.bits + 1 ∧ 2 ^ (N - 1) ≤ v then (v : Int) - 2 ^ N else v

end Verif.BitMedium.Spec
