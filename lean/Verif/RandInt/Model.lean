import Verif.MulPrec.CopyModel
/-!
Model of `rand_int()` for multiple precision integers: /repo/src/archon/core/random.hpp:204-283.

Random numbers of fundamental types are arguments of the model: a list of attempts, each being a list of such numbers. `none` stands for
undefined behavior, or for a list of attempts that is too short. The part type is an unsigned type that is not subject to promotion.
-/
namespace Verif.RandInt
open Verif.MulPrec Verif.Integer

/-- `add()`: random.hpp:223-234. -/
def add (w : Nat) : List Nat → List Nat → Bool → List Nat
  | a :: as, b :: bs, carry =>
    let part2 := (a + b) % 2 ^ w
    let part3 := (part2 + carry.toNat) % 2 ^ w
    part3 :: add w as bs (decide (part2 < a) || decide (part3 < part2))
  | _, _, _ => []

/-- `sub()`: random.hpp:235-246. Subtraction is modulo `2^w`. -/
def sub (w : Nat) : List Nat → List Nat → Bool → List Nat
  | a :: as, b :: bs, carry =>
    let part2 := (a + (2 ^ w - b)) % 2 ^ w
    let part3 := (part2 + (2 ^ w - carry.toNat)) % 2 ^ w
    part3 :: sub w as bs (decide (part2 > a) || decide (part3 > part2))
  | _, _, _ => []

/-- `find_msb_pos()`: random.hpp:247-255. The last argument is the number of parts that remain. -/
def findMsbPos (w : Nat) (a : List Nat) : Nat → Option Int
  | 0 => some (-1)
  | j + 1 => do
    let part ← rd a j
    if part ≠ 0 then some (j * w + Integer.findMsbPos ⟨false, w⟩ part) else findMsbPos w a j

/-- `less()`: random.hpp:256-264. The last argument is the number of parts that remain. -/
def less (a b : List Nat) : Nat → Option Bool
  | 0 => some false
  | j + 1 => do
    let x ← rd a j
    let y ← rd b j
    if x = y then less a b j else some (decide (x < y))

/-- The largest values of the random numbers that are needed for one attempt: random.hpp:268-278. -/
def requests (w numBits : Nat) : List Nat :=
  List.replicate (numBits / w) (2 ^ w - 1) ++ if numBits % w > 0 then [2 ^ (numBits % w) - 1] else []

/-- Storing of random numbers: random.hpp:273-277. -/
def fill : Nat → List Nat → List Nat → Option (List Nat)
  | _, parts, [] => some parts
  | i, parts, x :: xs => do fill (i + 1) (← wr parts i x) xs

/-- The attempts: random.hpp:271-281. -/
def attempts (diff : List Nat) (n : Nat) : List Nat → List (List Nat) → Option (List Nat)
  | _, [] => none
  | parts, xs :: xss => do
    let parts ← fill 0 parts xs
    if !(← less diff parts n) then some parts else attempts diff n parts xss

/-- The number of random bits: random.hpp:265-268. -/
def numBits (I w N : Nat) (S : Bool) (min max : List Nat) : Option Nat := do
  let diff := sub (reprWidth I w) (← getParts I w N S max) (← getParts I w N S min) false
  some (1 + (← findMsbPos (reprWidth I w) diff (reprParts I w N))).toNat

/-- `rand_int()`: random.hpp:204-283. -/
def randInt (I w N : Nat) (S : Bool) (min max : List Nat) (xss : List (List Nat)) : Option (List Nat) := do
  let min2 ← getParts I w N S min
  let max2 ← getParts I w N S max
  let diff := sub (reprWidth I w) max2 min2 false
  let parts ← attempts diff (reprParts I w N) (zero (reprParts I w N)) xss
  fromParts I w N S (add (reprWidth I w) min2 parts false)

end Verif.RandInt
