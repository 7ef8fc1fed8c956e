import Verif.IntText.Model

/-!
# Model of `core::SuperInt`

Model of `/repo/src/archon/core/super_int.hpp`.

`N` is the number of value bits of `std::uintmax_t` (`digits`, line 57). A value of type `uint_type` is a
natural number less than `2 ^ N`, and arithmetic on such values is modulo `2 ^ N`. Integer types (`T` in
the conversion functions) are as in the model of `core/integer.hpp`. Undefined behavior and failed
assertions are the outcome `none`.
-/

namespace Verif.SuperInt

open Verif.Integer (Ty)

/-- `SuperInt` (`/repo/src/archon/core/super_int.hpp:136-145`): `m_value` and `m_sign_bit`. -/
structure SuperInt where
  value : Nat
  sign : Bool
deriving DecidableEq, Repr

/-! ### Arithmetic in type `uint_type` -/

/-- Sum in type `uint_type`. -/
def uadd (N a b : Nat) : Nat := (a + b) % 2 ^ N

/-- Difference in type `uint_type`. -/
def usub (N a b : Nat) : Nat := (a + (2 ^ N - b)) % 2 ^ N

/-- Product in type `uint_type`. -/
def umul (N a b : Nat) : Nat := a * b % 2 ^ N

/-- Bitwise complement in type `uint_type`. -/
def unot (N a : Nat) : Nat := 2 ^ N - 1 - a

/-- Quotient in type `uint_type`. Division by zero is undefined behavior. -/
def udiv (a b : Nat) : Option Nat := if b = 0 then none else some (a / b)

/-- Left shift in type `uint_type`. It is undefined behavior if the amount is negative, or not less than
the width of the type. -/
def ushl (N a : Nat) (n : Int) : Option Nat :=
  if 0 ≤ n ∧ n < N then some (a * 2 ^ n.toNat % 2 ^ N) else none

/-- Right shift in type `uint_type`, like left shift. -/
def ushr (N a : Nat) (n : Int) : Option Nat :=
  if 0 ≤ n ∧ n < N then some (a / 2 ^ n.toNat) else none

/-- `uint_lim_type::max()`. -/
def umax (N : Nat) : Nat := 2 ^ N - 1

/-! ### Construction -/

/-- `SuperInt()` (`/repo/src/archon/core/super_int.hpp:74`, `139`, `144`). -/
def zero : SuperInt := ⟨0, false⟩

/-- `min()` (`/repo/src/archon/core/super_int.hpp:158-163`). -/
def min : SuperInt := ⟨0, true⟩

/-- `max()` (`/repo/src/archon/core/super_int.hpp:166-171`). -/
def max (N : Nat) : SuperInt := ⟨umax N, false⟩

/-- Construction from a value of a built-in integer type (`/repo/src/archon/core/super_int.hpp:174-186`).
-/
def ofInt (N : Nat) (T : Ty) (v : Int) : SuperInt :=
  ⟨(v % 2 ^ N).toNat, if T.signed then decide (v < 0) else false⟩

/-! ### Comparison -/

/-- `operator==()` (`/repo/src/archon/core/super_int.hpp:445-449`). -/
def eq (a b : SuperInt) : Bool := decide (a.value = b.value) && decide (a.sign = b.sign)

/-- `operator!=()` (`/repo/src/archon/core/super_int.hpp:452-456`). -/
def ne (a b : SuperInt) : Bool := !eq a b

/-- `operator<()` (`/repo/src/archon/core/super_int.hpp:459-469`). -/
def lt (a b : SuperInt) : Bool :=
  if a.sign && !b.sign then true
  else if a.sign = b.sign then
    if a.value < b.value then true else false
  else false

/-- `operator<=()` (`/repo/src/archon/core/super_int.hpp:472-476`). -/
def le (a b : SuperInt) : Bool := !lt b a

/-- `operator>()` (`/repo/src/archon/core/super_int.hpp:479-483`). -/
def gt (a b : SuperInt) : Bool := lt b a

/-- `operator>=()` (`/repo/src/archon/core/super_int.hpp:486-490`). -/
def ge (a b : SuperInt) : Bool := !lt a b

/-! ### Conversion to built-in integer types -/

/-- `cast_has_overflow()` (`/repo/src/archon/core/super_int.hpp:196-204`). -/
def castHasOverflow (N : Nat) (T : Ty) (a : SuperInt) : Bool :=
  if lt a (ofInt N T T.min) then true
  else if gt a (ofInt N T T.max) then true
  else false

/-- `get_as()` (`/repo/src/archon/core/super_int.hpp:207-234`). The outer option is for undefined
behavior, which is the case when the subtraction in the promoted type overflows. The inner option is
for the returned boolean and the value assigned to `v`. -/
def getAs (N I : Nat) (T : Ty) (a : SuperInt) : Option (Option Int) :=
  if castHasOverflow N T a then some none
  else if a.sign then
    let promoted := Integer.promote I T
    match Integer.arith I promoted (-1 - Integer.cast promoted (unot N a.value)) with
    | none => none
    | some v => some (some (Integer.cast T v))
  else some (some (Integer.cast T a.value))

/-! ### Addition and subtraction -/

/-- `operator+=()` and `operator+()` (`/repo/src/archon/core/super_int.hpp:335-342`, `255-260`). -/
def add (N : Nat) (a b : SuperInt) : SuperInt :=
  let value := uadd N a.value b.value
  let carry := decide (value < a.value)
  ⟨value, (a.sign != b.sign) != carry⟩

/-- `operator-=()` and `operator-()` (`/repo/src/archon/core/super_int.hpp:345-352`, `263-268`). -/
def sub (N : Nat) (a b : SuperInt) : SuperInt :=
  let value := usub N a.value b.value
  let borrow := decide (value > a.value)
  ⟨value, (a.sign != b.sign) != borrow⟩

/-- Unary `operator+()` (`/repo/src/archon/core/super_int.hpp:237-240`). -/
def pos (a : SuperInt) : SuperInt := a

/-- Unary `operator-()` (`/repo/src/archon/core/super_int.hpp:243-246`). -/
def neg (N : Nat) (a : SuperInt) : SuperInt := sub N zero a

/-- `add_with_overflow_detect()` (`/repo/src/archon/core/super_int.hpp:493-503`). The returned boolean, and
the new value of the object. -/
def addOverflow (N : Nat) (a b : SuperInt) : Bool × SuperInt :=
  let sum := add N a b
  let carry := decide (sum.value < a.value)
  let overflow := a.sign == b.sign && a.sign != carry
  if !overflow then (false, sum) else (true, a)

/-- `subtract_with_overflow_detect()` (`/repo/src/archon/core/super_int.hpp:506-516`). -/
def subOverflow (N : Nat) (a b : SuperInt) : Bool × SuperInt :=
  let diff := sub N a b
  let borrow := decide (diff.value > a.value)
  let overflow := a.sign != b.sign && a.sign == borrow
  if !overflow then (false, diff) else (true, a)

/-! ### Multiplication -/

/-- `operator*=()` and `operator*()` (`/repo/src/archon/core/super_int.hpp:355-367`, `271-276`). The shifts by one
are as for `uint_type` of more than one bit. `|` is bitwise disjunction. -/
def mul (N : Nat) (a b : SuperInt) : SuperInt :=
  let msb := N - 1
  let a1 := a.value % 2
  let b1 := b.value % 2
  let a2 := a.sign.toNat * 2 ^ msb % 2 ^ N ||| a.value / 2
  let b2 := b.sign.toNat * 2 ^ msb % 2 ^ N ||| b.value / 2
  let v := uadd N (uadd N (umul N a2 b2 * 2 % 2 ^ N) (umul N a2 b1)) (umul N a1 b2)
  ⟨v * 2 % 2 ^ N ||| umul N a1 b1, decide (v / 2 ^ msb ≠ 0)⟩

/-- `multiply_with_overflow_detect()` (`/repo/src/archon/core/super_int.hpp:519-579`). The outer option is for
undefined behavior (division by zero). The values that are subtracted are computed in type `uint_type`.
-/
def mulOverflow (N : Nat) (x y : SuperInt) : Option (Bool × SuperInt) :=
  let max := umax N
  let a := x.value
  let b := y.value
  let good : Option Bool :=
    if !x.sign then
      if !y.sign then
        -- Case: non-negative * non-negative
        if b = 0 then some true
        else match udiv max b with
          | none => none
          | some q => some (decide (a ≤ q))
      else
        -- Case: non-negative * negative
        if a = 0 then some true
        else match udiv (usub N max (usub N a 1)) a with
          | none => none
          | some q => some (decide (unot N b ≤ q))
    else
      if !y.sign then
        -- Case: negative * non-negative
        if b = 0 then some true
        else match udiv (usub N max (usub N b 1)) b with
          | none => none
          | some q => some (decide (unot N a ≤ q))
      else
        -- Case: negative * negative
        if unot N b ≠ 0 then
          if unot N a ≤ usub N max 1 then
            if unot N b ≤ usub N (usub N max 1) (unot N a) then
              match udiv (usub N (usub N (usub N max 1) (unot N a)) (unot N b)) (unot N b) with
              | none => none
              | some q => some (decide (unot N a ≤ q))
            else some false
          else some false
        else some (decide (a ≠ 0))
  match good with
  | none => none
  | some true => some (false, mul N x y)
  | some false => some (true, x)

/-! ### Division -/

/-- The quotient when the dividend is maximally negative, and the absolute value of the divisor is `b`
(`/repo/src/archon/core/super_int.hpp:613-620`, `639-645`). The inner option is `none` when the quotient is one
more than the largest value of `uint_type`. -/
def maxQuot (N b : Nat) : Option (Option Nat) :=
  match udiv (umax N) b with
  | none => none
  | some result =>
    if usub N (umax N) (umul N result b) ≥ usub N b 1 then
      if result = umax N then some none
      else some (some (uadd N result 1))
    else some (some result)

/-- `divide_with_overflow_detect()` (`/repo/src/archon/core/super_int.hpp:582-653`). The outer option is for
undefined behavior. -/
def divOverflow (N : Nat) (a b : SuperInt) : Option (Bool × SuperInt) :=
  if !a.sign then
    if !b.sign then
      -- Non-negative dividend, non-negative divisor
      match udiv a.value b.value with
      | none => none
      | some q => some (false, ⟨q, a.sign⟩)
    else if b.value > 0 then
      -- Non-negative dividend, negative divisor
      match udiv a.value (uadd N (unot N b.value) 1) with
      | none => none
      | some result => some (false, ⟨uadd N (unot N result) 1, decide (result > 0)⟩)
    else
      -- Maximally negative divisor
      some (false, ⟨0, a.sign⟩)
  else if !b.sign then
    if a.value > 0 then
      -- Negative dividend, non-negative divisor
      match udiv (uadd N (unot N a.value) 1) b.value with
      | none => none
      | some result => some (false, ⟨uadd N (unot N result) 1, decide (result > 0)⟩)
    else
      -- Maximally negative dividend
      match maxQuot N b.value with
      | none => none
      | some none => some (false, ⟨a.value, true⟩)
      | some (some result) => some (false, ⟨uadd N (unot N result) 1, decide (result > 0)⟩)
  else if a.value > 0 then
    if b.value > 0 then
      -- Negative dividend, negative divisor
      match udiv (uadd N (unot N a.value) 1) (uadd N (unot N b.value) 1) with
      | none => none
      | some q => some (false, ⟨q, false⟩)
    else
      -- Maximally negative divisor
      some (false, ⟨0, false⟩)
  else if b.value > 0 then
    -- Maximally negative dividend
    match maxQuot N (uadd N (unot N b.value) 1) with
    | none => none
    | some none => some (true, a)
    | some (some result) => some (false, ⟨result, false⟩)
  else
    -- Maximally negative dividend and divisor
    some (false, ⟨1, false⟩)

/-- A type for `int`, used for the constant `-1`. -/
def int (I : Nat) : Ty := ⟨true, I⟩

/-- `operator/=()` and `operator/()` (`/repo/src/archon/core/super_int.hpp:370-382`, `279-284`). `I` is the number
of value bits of `int`. -/
def div (N I : Nat) (a b : SuperInt) : Option SuperInt :=
  match divOverflow N a b with
  | none => none
  | some (false, q) => some q
  | some (true, a') =>
    if eq a' min && eq b (ofInt N (int I) (-1)) then some min else none

/-- `operator%=()` and `operator%()` (`/repo/src/archon/core/super_int.hpp:385-397`, `287-292`). -/
def mod (N I : Nat) (a b : SuperInt) : Option SuperInt :=
  match divOverflow N a b with
  | none => none
  | some (false, v) => some (sub N a (mul N v b))
  | some (true, _) =>
    if eq a min && eq b (ofInt N (int I) (-1)) then some zero else none

/-! ### Operations on bits -/

/-- `operator~()` (`/repo/src/archon/core/super_int.hpp:249-252`). -/
def not (N : Nat) (a : SuperInt) : SuperInt := ⟨unot N a.value, !a.sign⟩

/-- `operator&=()` and `operator&()` (`/repo/src/archon/core/super_int.hpp:400-405`, `295-300`). -/
def and (a b : SuperInt) : SuperInt := ⟨a.value &&& b.value, a.sign && b.sign⟩

/-- `operator|=()` and `operator|()` (`/repo/src/archon/core/super_int.hpp:408-413`, `303-308`). -/
def or (a b : SuperInt) : SuperInt := ⟨a.value ||| b.value, a.sign || b.sign⟩

/-- `operator^=()` and `operator^()` (`/repo/src/archon/core/super_int.hpp:416-421`, `311-316`). -/
def xor (a b : SuperInt) : SuperInt := ⟨a.value ^^^ b.value, a.sign != b.sign⟩

/-- `operator<<=()` and `operator<<()` (`/repo/src/archon/core/super_int.hpp:424-431`, `319-324`). -/
def shl (N : Nat) (a : SuperInt) (n : Int) : Option SuperInt :=
  if n > 0 then
    match ushr N a.value (N - n) with
    | none => none
    | some s =>
      match ushl N a.value n with
      | none => none
      | some v => some ⟨v, decide (s % 2 ≠ 0)⟩
  else some a

/-- `operator>>=()` and `operator>>()` (`/repo/src/archon/core/super_int.hpp:434-442`, `327-332`). -/
def shr (N : Nat) (a : SuperInt) (n : Int) : Option SuperInt :=
  if n > 0 then
    match ushr N a.value n with
    | none => none
    | some v =>
      match ushl N a.sign.toNat (N - n) with
      | none => none
      | some s => some ⟨v ||| s, false⟩
  else some a

/-! ### Output -/

/-- The last digit, and the number formed by the other digits of the absolute value of a negative value
(`/repo/src/archon/core/super_int.hpp:677-694`). Arithmetic in type `int` involves numbers between -9 and 19, so
there is no overflow. -/
def splitNegative (N : Nat) (value : Nat) : Nat × Int :=
  let max := umax N
  let last1 : Int := (max % 10 : Nat)
  let others1 := max / 10
  let last1 := last1 + 1
  let p : Int × Nat := if last1 = 10 then (0, uadd N others1 1) else (last1, others1)
  let last2 : Int := (value % 10 : Nat)
  let others2 := value / 10
  let last1 := p.1 - last2
  let others1 := usub N p.2 others2
  if last1 < 0 then (usub N others1 1, last1 + 10) else (others1, last1)

/-- The text that is written by the output operator (`/repo/src/archon/core/super_int.hpp:668-704`). `mem` is the
memory of the buffer of the formatter, `M` is the largest value of `std::size_t`, and `widen` is widening of
characters. The text is written to the stream through `core::ostream_sentry()`, which is not modelled
here. -/
def output {C : Type} (N I M : Nat) (d : C) (widen : Nat → C) (mem : List C) (a : SuperInt) :
    Buffer.Res (List C) :=
  let uint : Ty := ⟨false, N⟩
  if a.sign then
    let r := splitNegative N a.value
    if r.1 > 0 then do
      let (mem, s) ← IntText.format I uint M d widen false 10 1 r.1 mem
      let (_, t) ← IntText.format I (int I) M d widen false 10 1 r.2 mem
      .ok ([widen 45] ++ s ++ t)
    else do
      let (_, t) ← IntText.format I (int I) M d widen false 10 1 r.2 mem
      .ok ([widen 45] ++ t)
  else do
    let (_, s) ← IntText.format I uint M d widen false 10 1 a.value mem
    .ok s

end Verif.SuperInt
