import Verif.Integer.Model2
/-!
Model of /repo/src/archon/util/unit_frac.hpp: `change_bit_width()` and `int_to_int_a()`.

Integer types and arithmetic: see Verif/Integer/Model.lean and Verif/Integer/Model2.lean. `none` is undefined behavior or a
failed assertion. The conversions from and to floating point are not modelled.
-/
namespace Verif.UnitFrac
open Verif.Integer

/-- The loop of `change_bit_width()`: unit_frac.hpp:262-271. The first argument bounds the number of turns. `v2` is of the
promoted type. `n_2` and `n_3` are bounded by twice the width of an integer type, so that the arithmetic of type `int` on
them is exact. -/
def expand (I : Nat) (T : Ty) (m : Nat) : Nat → (n2 : Nat) → (v2 : Int) → Option Int
  | 0, _, _ => none
  | fuel + 1, n2, v2 =>
    let n3 := n2 * 2
    if m < n3 then
      let r := m - n2
      if r ≠ 0 then do
        let hi ← shl (promote I T) v2 r
        let lo ← shr (promote I T) v2 (n2 - r)
        some (cast T (bitOr (promote I T) hi lo))
      else some (cast T v2)
    else do
      let one ← shl (promote I T) 1 n2
      let f ← arith I (promote I T) (one + 1)
      let v2 ← arith I (promote I T) (v2 * f)
      expand I T m fuel n3 v2

/-- `change_bit_width()`: unit_frac.hpp:252-272. -/
def changeBitWidth (I : Nat) (T : Ty) (v : Int) (n m : Nat) : Option Int :=
  if ¬ (n > 0 ∧ n ≤ T.width) then none
  else if ¬ (m > 0 ∧ m ≤ T.width) then none
  else
    let v2 := cast (promote I T) v
    if m < n then do
      let w ← shr (promote I T) v2 (n - m)
      some (cast T w)
    else expand I T m (m + 1) n v2

/-- `int_to_int_a()`: unit_frac.hpp:275-280. `U` is the unsigned type that is chosen for intermediate results, `A` is the
type `I` of the function, and `J` is the type of the result. -/
def intToIntA (I : Nat) (U A J : Ty) (val max1 max2 : Int) : Option Int := do
  let p ← arith I U (cast U val * cast U max2)
  let q ← divRoundHalfDown I U A (cast U p) max1
  some (cast J q)

end Verif.UnitFrac
