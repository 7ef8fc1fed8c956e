import Mathlib.Data.Rat.Floor
import Mathlib.Algebra.Order.Floor.Ring
import Mathlib.Algebra.Order.Ring.Abs
import Mathlib.Algebra.Order.Field.Rat
/-!
Model of /repo/src/archon/core/format_as.hpp: ordinals, percentages, amounts of time, amounts of memory, and physical
quantities.

Simplified: values of type `double` are finite and rational. Arithmetic is exact, except in `percent`, where the result of
the multiplication is rounded. The final text of a number is left out: the result is the number that is formatted with
three significant digits, or with the requested number of decimals.
-/
namespace Verif.FormatAs

/-- The suffix of an ordinal: format_as.hpp:440-455. -/
def ordinalSuffix (v : Int) : String :=
  let lastTwo := v.tmod 100
  let lastTwo := if lastTwo < 0 then -lastTwo else lastTwo
  let index :=
    if lastTwo ≤ 3 then lastTwo
    else if lastTwo ≥ 20 then
      let last := lastTwo.tmod 10
      if last ≤ 3 then last else 0
    else 0
  match index with
  | 0 => "th"
  | 1 => "st"
  | 2 => "nd"
  | _ => "rd"

/-- The output for `as_ordinal()`: format_as.hpp:434-460. -/
def ordinal (v : Int) : String := toString v ++ ordinalSuffix v

/-- The output for `as_percent()`: format_as.hpp:478-498. The argument `rnd` is rounding to a value of type `double`. The
result is the number of units of the last decimal (before it is divided by `multiplier_1`), or `none` if an exception is
thrown. -/
def percent (rnd : ℚ → ℚ) (v : ℚ) (n : Int) : Option Int :=
  if n < 0 ∨ n > 6 then none
  else
    let multiplier1 : ℚ := 10 ^ n.toNat
    let multiplier2 := multiplier1 * 100
    some ⌊rnd (v * multiplier2)⌋

/-- The function `round` in the output for `as_time_a()`: format_as.hpp:503-505, with the conversion to a signed integer
that follows (format_as.hpp:507 and 520). The result is `none` if an exception is thrown due to overflow. -/
def round (v : ℚ) : Option Int :=
  let r := ⌊v + 1 / 2⌋
  if 0 ≤ r ∧ r < 2 ^ 64 then some (if r < 2 ^ 63 then r else r - 2 ^ 64) else none

/-- The forms of an amount of time: hours and minutes, minutes and seconds, or quantity in seconds. -/
inductive Time where
  | hm (hours minutes : Int)
  | ms (minutes seconds : Int)
  | quant (v : ℚ)
deriving DecidableEq

/-- The output for `as_time_a()`: format_as.hpp:501-535. -/
def time (v : ℚ) : Option Time := do
  let value := |v|
  let minutes ← round (value / 60)
  if minutes ≥ 60 then
    let hours := minutes.tdiv 60
    let minutes2 := minutes.tmod 60
    some (.hm (if v < 0 then -hours else hours) minutes2)
  else
    let seconds ← round value
    if seconds ≥ 60 then
      let minutes := seconds.tdiv 60
      let seconds2 := seconds.tmod 60
      some (.ms (if v < 0 then -minutes else minutes) seconds2)
    else some (.quant v)

/-- `as_quant_limit()`: format_as.hpp:419-422. -/
def limit : ℚ := 1999 / 2

/-- The loop for small values in the output for `as_quant()`: format_as.hpp:564-573. The first argument is the number of
further prefixes. -/
def smallLoop : Nat → ℚ → Nat → ℚ × Nat
  | 0, v, i => (v, i)
  | k + 1, v, i => if v * 1000 ≥ limit then (v, i) else smallLoop k (v * 1000) (i + 1)

/-- The loop for large values in the output for `as_quant()`: format_as.hpp:579-587. The first argument is the number of
further prefixes. -/
def largeLoop : Nat → ℚ → Nat → ℚ × Nat
  | 0, v, i => (v / 1000, i)
  | k + 1, v, i => if v / 1000 < limit then (v / 1000, i) else largeLoop k (v / 1000) (i + 1)

/-- `small_prefixes` and `large_prefixes`: format_as.hpp:556-557. -/
def smallPrefixes : List String := ["", "m", "u", "n", "p", "f", "a", "z", "y"]
def largePrefixes : List String := ["k", "M", "G", "T", "P", "E", "Z", "Y"]

/-- The output for `as_quant()`: format_as.hpp:551-608. The result is the number and the prefix. -/
def quant (v : ℚ) : ℚ × String :=
  let value := |v|
  let (value, pre) :=
    if value < limit then
      let (value, i) := smallLoop (smallPrefixes.length - 1) value 0
      (value, smallPrefixes.getD i "")
    else
      let (value, i) := largeLoop (largePrefixes.length - 1) value 0
      (value, largePrefixes.getD i "")
  (if v < 0 then -value else value, pre)

/-- `binary_prefixes`: format_as.hpp:617. -/
def binaryPrefixes : List String := ["", "Ki", "Mi", "Gi", "Ti", "Pi", "Ei", "Zi", "Yi"]

/-- The loop in the output for `as_quant_bin()`: format_as.hpp:624-632. The first argument is the number of further
prefixes. -/
def binLoop : Nat → ℚ → Nat → ℚ × Nat
  | 0, v, i => (v, i)
  | k + 1, v, i => if v < limit then (v, i) else binLoop k (v / 1024) (i + 1)

/-- The output for `as_quant_bin()`: format_as.hpp:612-654. The result is the number and the prefix. -/
def quantBin (v : ℚ) : ℚ × String :=
  let value := |v|
  let (value, i) := binLoop (binaryPrefixes.length - 1) value 0
  (if v < 0 then -value else value, binaryPrefixes.getD i "")

/-- The end of the output for `as_quant()` and `as_quant_bin()`: format_as.hpp:601-606 and 647-652. -/
def unitText (pre : List Char) : List Char → List Char
  | ' ' :: unit => ' ' :: unitText pre unit
  | unit => pre ++ unit

/-- The choice of form in the output for `as_num_of()`: format_as.hpp:469-471, for a signed type. -/
def needSingular (v : ℚ) : Bool := v == 1 || v == -1

/-- The forms of an amount of memory: a number of bytes, with the word for it, or a quantity. -/
inductive Memory where
  | count (v : ℚ) (word : String)
  | quant (v : ℚ) (pre : String)
deriving DecidableEq

/-- The output for `as_byte_size()`: format_as.hpp:538-548. -/
def byteSize (v : ℚ) : Memory :=
  if |v| ≥ limit then .quant (quantBin v).1 (quantBin v).2
  else .count v (if needSingular v then "byte" else "bytes")

end Verif.FormatAs
