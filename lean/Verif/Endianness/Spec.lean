import Verif.Endianness.Model
import Verif.Integer.Spec
/-!
Byte orders.
-/
namespace Verif.Endianness.Spec
open Verif.Integer

/-- The digit of weight `(2^m)^k` of the two's complement form with `n` bytes of `v`. -/
def digit (m n : Nat) (v : Int) (k : Nat) : Nat := (v % 2 ^ (n * m)).toNat / (2 ^ m) ^ k % 2 ^ m

/-- Values of type `T` are stored with the most significant byte first. -/
def IsBig (T : Ty) (m n : Nat) (σ : Nat → Nat) : Prop :=
  ∀ v, Verif.Integer.Spec.Fits T v → ∀ j < n, memByte T m σ v j = digit m n v (n - 1 - j)

/-- Values of type `T` are stored with the least significant byte first. -/
def IsLittle (T : Ty) (m n : Nat) (σ : Nat → Nat) : Prop :=
  ∀ v, Verif.Integer.Spec.Fits T v → ∀ j < n, memByte T m σ v j = digit m n v j

end Verif.Endianness.Spec
