import Verif.MulPrec.Model
/-!
Model of `int_bit_copy()` (/repo/src/archon/core/integer.hpp:2152-2256) and of the conversions between fundamental and multiple
precision integers that use it.

`I` is the number of value bits of `int`.
-/
namespace Verif.MulPrec
open Verif.Integer

/-- The width of the type in which `int_bit_copy()` computes, `common_int_type<unsigned, T, U>`: integer.hpp:2159 and 939-984. It
is unsigned, and it is not subject to promotion because it has more value bits than `int`. -/
def copyWidth (I w1 w2 : Nat) : Nat := max (max (I + 1) w1) w2

/-- `x << n` in an unsigned type of width `t` that is not promoted. -/
def shlU (t x n : Nat) : Option Nat := if n < t then some (x * 2 ^ n % 2 ^ t) else none

/-- `x >> n` in an unsigned type of width `t` that is not promoted. -/
def shrU (t x n : Nat) : Option Nat := if n < t then some (x / 2 ^ n) else none

/-- Difference used as shift amount. A negative shift amount is undefined behavior. -/
def amount (a b : Nat) : Option Nat := if b ≤ a then some (a - b) else none

/-- The sign extension: integer.hpp:2187-2190 and 2236-2239. -/
def copyExt (I w1 N t : Nat) (S : Bool) (parts1 : List Nat) : Option Nat :=
  if S then do
    let x ← shr (P I w1) (← rd parts1 (N - 1)) (w1 - 1)
    let signBit := cast (intTy I) x
    some (toT t (← arith I (intTy I) (-1 * signBit)))
  else do
    some (toT t (← arith I (intTy I) (-1 * 0)))

/-- The loops that set the remaining parts: integer.hpp:2193-2200 and 2242-2249. -/
def copyFill (w2 M ext : Nat) (i : Nat) (parts2 : List Nat) : Option (List Nat) :=
  loop (fun k p => wr p k (ext % 2 ^ w2)) (M - i) i parts2

/-- The loop of the first branch: integer.hpp:2170-2209. The first argument is `num_parts_2 - part_index_2`. -/
def copyScatter (I w1 w2 N M t : Nat) (S : Bool) (parts1 : List Nat) :
    (k i idx1 part1 offset : Nat) → List Nat → Option (List Nat)
  | 0, _, _, _, _, parts2 => some parts2
  | k + 1, i, idx1, part1, offset, parts2 => do
    let part2 ← shrU t part1 offset
    if offset < w1 - w2 then
      copyScatter I w1 w2 N M t S parts1 k (i + 1) idx1 part1 (offset + w2) (← wr parts2 i (part2 % 2 ^ w2))
    else
      let offset := offset - (w1 - w2)
      let idx1 := idx1 + 1
      if idx1 < N then
        let part1 ← rd parts1 idx1
        let part2 := part2 ||| (← shlU t (← shlU t part1 1) (← amount w2 (offset + 1)))
        copyScatter I w1 w2 N M t S parts1 k (i + 1) idx1 part1 offset (← wr parts2 i (part2 % 2 ^ w2))
      else
        let ext ← copyExt I w1 N t S parts1
        let part2 := part2 ||| (← shlU t (← shlU t ext 1) (← amount w2 (offset + 1)))
        copyFill w2 M ext (i + 1) (← wr parts2 i (part2 % 2 ^ w2))

/-- The loop of the second branch: integer.hpp:2216-2252. The first argument is `num_parts_1 - part_index_1`. -/
def copyGather (I w1 w2 N M t : Nat) (S : Bool) (parts1 : List Nat) :
    (k idx1 i part2 offset : Nat) → List Nat → Option (List Nat)
  | 0, _, i, part2, offset, parts2 => do
    let ext ← copyExt I w1 N t S parts1
    let part2 := part2 ||| (← shlU t ext offset)
    copyFill w2 M ext (i + 1) (← wr parts2 i (part2 % 2 ^ w2))
  | k + 1, idx1, i, part2, offset, parts2 => do
    let part1 ← rd parts1 idx1
    let part2 := part2 ||| (← shlU t part1 offset)
    if offset < w2 - w1 then copyGather I w1 w2 N M t S parts1 k (idx1 + 1) i part2 (offset + w1) parts2
    else
      let parts2 ← wr parts2 i (part2 % 2 ^ w2)
      if i + 1 < M then
        let offset := offset - (w2 - w1)
        let part2 ← shrU t (← shrU t part1 1) (← amount w1 (offset + 1))
        copyGather I w1 w2 N M t S parts1 k (idx1 + 1) (i + 1) part2 offset parts2
      else some parts2

/-- `int_bit_copy()`: integer.hpp:2152-2256. The arrays have lengths `N` and `M`, which are greater than zero. -/
def bitCopy (I w1 w2 N M : Nat) (S : Bool) (parts1 parts2 : List Nat) : Option (List Nat) := do
  let t := copyWidth I w1 w2
  if N = 0 ∨ M = 0 then none
  else if w1 ≥ w2 then copyScatter I w1 w2 N M t S parts1 M 0 0 (← rd parts1 0) 0 parts2
  else copyGather I w1 w2 N M t S parts1 N 0 0 0 0 parts2

/-! ### Conversions -/

/-- The width of the parts in the parts representation of a multiple precision integer: mul_prec_int.hpp:207. -/
def reprWidth (I w : Nat) : Nat := (unsignedOf (P I w)).bits

/-- The number of parts in the parts representation: mul_prec_int.hpp:208. -/
def reprParts (I w N : Nat) : Nat := (w * N + (reprWidth I w - 1)) / reprWidth I w

/-- `IntegerTraits<MulPrecInt>::get_parts()`: mul_prec_int.hpp:850-863. The two part types are the same if, and only if the part
type of the multiple precision integer is not subject to promotion. -/
def getParts (I w N : Nat) (S : Bool) (a : List Nat) : Option (List Nat) :=
  if I < w then some a
  else bitCopy I w (reprWidth I w) N (reprParts I w N) S a (zero (reprParts I w N))

/-- `IntegerTraits<MulPrecInt>::from_parts()`: mul_prec_int.hpp:866-878. -/
def fromParts (I w N : Nat) (S : Bool) (parts : List Nat) : Option (List Nat) :=
  if I < w then some parts
  else bitCopy I (reprWidth I w) w (reprParts I w N) N S parts (zero N)

/-- The width of the single part in the parts representation of a fundamental type (other than `bool`): integer_traits.hpp:130-131.
It is at least the width of the type, so there is one part (integer_traits.hpp:141). -/
def partWidth (I : Nat) (t : Ty) : Nat := (unsignedOf (promote I t)).bits

/-- `IntegerTraits<T>::get_parts()` for fundamental types: integer_traits.hpp:175-185. -/
def getPartsF (I : Nat) (t : Ty) (x : Int) : List Nat := [toT (partWidth I t) x]

/-- `IntegerTraits<T>::from_parts()` for fundamental types: integer_traits.hpp:189-203. -/
def fromPartsF (I : Nat) (t : Ty) (parts : List Nat) : Option Int := do
  let x ← rd parts 0
  if !t.signed then some (cast t x)
  else
    let p := partWidth I t
    let m ← shl (P I p) 1 (p - 1)
    if bitAnd (P I p) x m = 0 then some (cast t x)
    else
      let y ← arith I (T p) ((2 ^ p - 1) - x)
      some (cast t (← arith I (promote I t) (-1 - cast (promote I t) y)))

/-- `int_cast_a()` from one multiple precision type to another: integer.hpp:1252-1264. -/
def castMM (I w N : Nat) (S : Bool) (w' N' : Nat) (S' : Bool) (a : List Nat) : Option (List Nat) := do
  let parts1 ← getParts I w N S a
  let parts2 ← bitCopy I (reprWidth I w) (reprWidth I w') (reprParts I w N) (reprParts I w' N') S parts1
    (zero (reprParts I w' N'))
  fromParts I w' N' S' parts2

/-- `int_cast_a()` from a fundamental type to a multiple precision type: integer.hpp:1252-1264, mul_prec_int.hpp:238-243. -/
def castFM (I : Nat) (t : Ty) (w N : Nat) (S : Bool) (x : Int) : Option (List Nat) := do
  let parts2 ← bitCopy I (partWidth I t) (reprWidth I w) 1 (reprParts I w N) t.signed (getPartsF I t x) (zero (reprParts I w N))
  fromParts I w N S parts2

/-- `int_cast_a()` from a multiple precision type to a fundamental type: integer.hpp:1252-1264, mul_prec_int.hpp:246-250. -/
def castMF (I w N : Nat) (S : Bool) (t : Ty) (a : List Nat) : Option Int := do
  let parts1 ← getParts I w N S a
  let parts2 ← bitCopy I (reprWidth I w) (partWidth I t) (reprParts I w N) 1 S parts1 (zero 1)
  fromPartsF I t parts2

end Verif.MulPrec
