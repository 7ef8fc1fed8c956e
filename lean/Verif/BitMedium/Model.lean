import Verif.UnitFrac.Model
/-!
Model of /repo/src/archon/image/bit_medium.hpp, /repo/src/archon/image/impl/bit_medium.hpp, and of `int_to_int()` of
/repo/src/archon/image/comp_types.hpp.

Integer types and arithmetic: see Verif/Integer/Model.lean and Verif/Integer/Model2.lean. `I` is the number of value bits of
`int`. `none` is undefined behavior, a failed assertion, or an exception in a function that is declared `noexcept`. Only
built-in integer types are covered.
-/
namespace Verif.BitMedium
open Verif.Integer

/-- `core::unsigned_type<core::promoted_type<T>>`, as used in bit_medium.hpp:176 and 198, and in impl/bit_medium.hpp:39. -/
def wide (I : Nat) (T : Ty) : Ty := unsignedOf (promote I T)

/-- `is_bit_medium_of_width<T, N>`: impl/bit_medium.hpp:54-63. For a built-in integer type, the inner width is the width, and
the unsigned version has the same width (integer_traits.hpp:219-221). -/
def isMedium (T : Ty) (N : Nat) : Bool := decide (N ≤ T.width)

/-- `unpacked_type<T, N>`: bit_medium.hpp:106, impl/bit_medium.hpp:36-41. -/
def unpackedType (I : Nat) (T : Ty) (N : Nat) : Ty :=
  if (promote I T).bits ≥ N then promote I T else wide I T

/-- `pack_int<T, N>()` with an argument of type `U`: bit_medium.hpp:169-181. -/
def packInt (I : Nat) (T : Ty) (N : Nat) (U : Ty) (val : Int) : Option Int :=
  if N ≤ T.bits then some (cast T val)
  else do
    let val2 ← tryIntCast I (wide I T) U val
    let val3 ← signExtend I (wide I T) val2 N
    some (castFromTwosComplA T (wide I T) val3)

/-- `unpack_int_a<N, U>()` with an argument of type `T`: bit_medium.hpp:191-203. -/
def unpackIntA (I : Nat) (N : Nat) (U T : Ty) (val : Int) : Option Int :=
  if T.bits ≥ N then some (cast U val)
  else do
    let mask ← intMask I (wide I T) N
    some (cast U (bitAnd (wide I T) (cast (wide I T) val) mask))

/-- `unpack_int<N>()` with an argument of type `T`: bit_medium.hpp:184-188. -/
def unpackInt (I : Nat) (N : Nat) (T : Ty) (val : Int) : Option Int := unpackIntA I N (unpackedType I T N) T val

/-- `int_to_int<M, T, N>()` with an argument of type `J`: comp_types.hpp:170-180. -/
def intToInt (I : Nat) (M : Nat) (T : Ty) (N : Nat) (J : Ty) (val : Int) : Option Int := do
  let type1 := unpackedType I J M
  let type2 := unpackedType I T N
  let type3 := common type1 type2
  let val2 ← unpackInt I M J val
  let val3 ← UnitFrac.changeBitWidth I type3 (cast type3 val2) M N
  packInt I T N type3 val3

end Verif.BitMedium
