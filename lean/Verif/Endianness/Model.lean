import Verif.Integer.Model2
/-!
Model of /repo/src/archon/core/endianness.hpp, `try_get_byte_order()`.

The platform is described by `I` (the number of value bits of `int`), `m` (the number of bits of a byte), and, for the type
in question, by `n` (the number of bytes) and `σ`: the byte at position `j` in memory holds the bits of weight
`2^(m * σ j)` and up of the value in two's complement form.
-/
namespace Verif.Endianness
open Verif.Integer

/-- `core::Endianness`: endianness.hpp:79-82. -/
inductive Endianness where
  | big
  | little
deriving DecidableEq, Repr

/-- The byte at position `j` in memory of a value of type `T`. -/
def memByte (T : Ty) (m : Nat) (σ : Nat → Nat) (v : Int) (j : Nat) : Nat := bitsOf T v / 2 ^ (m * σ j) % 2 ^ m

/-- The loops: endianness.hpp:147-158 and 163-174. `pos i` is the position that is examined, `k` bounds the number of
turns. The result is whether the end of the loop is reached. -/
def loop (I : Nat) (T : Ty) (m n : Nat) (σ : Nat → Nat) (pos : Nat → Nat) : (fuel : Nat) → (i : Nat) → Option Bool
  | 0, _ => none
  | fuel + 1, i => do
    let val ← shl (promote I T) (cast (promote I T) (cast T 1)) (i * m)
    let val := cast T val
    if memByte T m σ val (pos i) = 1 then
      let i := i + 1
      if i < n then loop I T m n σ pos fuel i
      else some true
    else some false

/-- `try_get_byte_order()`: endianness.hpp:135-181. The result is `none` inside if the function returns `false`. -/
def tryGetByteOrder (I : Nat) (T : Ty) (m n : Nat) (σ : Nat → Nat) : Option (Option Endianness) :=
  if n = 1 then some (some .big)
  else if T.width = n * m then
    let val := cast T 1
    if memByte T m σ val (n - 1) = 1 then do
      let ok ← loop I T m n σ (fun i => n - 1 - i) n 1
      some (if ok then some .big else none)
    else if memByte T m σ val 0 = 1 then do
      let ok ← loop I T m n σ (fun i => i) n 1
      some (if ok then some .little else none)
    else some none
  else some none

end Verif.Endianness
