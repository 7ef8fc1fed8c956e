import Verif.Integer.Model
/-
Model of /repo/src/archon/core/integer.hpp, continued: bit operations, two's complement casts, power,
division helpers, square root, bit positions and shifts. See Model.lean for conventions.
-/
namespace Verif.Integer

/-! ### Operators of promoted built-in types -/

/-- The bits of a value of type `t`, as a natural number (two's complement). -/
def bitsOf (t : Ty) (x : Int) : Nat := (x % 2 ^ t.width).toNat

/-- `x & y` in a promoted type. -/
def bitAnd (t : Ty) (x y : Int) : Int := cast t ((bitsOf t x &&& bitsOf t y : Nat) : Int)

/-- `x | y` in a promoted type. -/
def bitOr (t : Ty) (x y : Int) : Int := cast t ((bitsOf t x ||| bitsOf t y : Nat) : Int)

/-- `~x` in a promoted type. -/
def bitNot (t : Ty) (x : Int) : Int := cast t (-1 - x)

/-- `x << n` in a promoted type (C++20: modulo the width). Undefined if `n` is not less than the width. -/
def shl (t : Ty) (x : Int) (n : Nat) : Option Int := if n < t.width then some (cast t (x * 2 ^ n)) else none

/-- `x >> n` in a promoted type (C++20: arithmetic shift). Undefined if `n` is not less than the width. -/
def shr (t : Ty) (x : Int) (n : Nat) : Option Int := if n < t.width then some (x / 2 ^ n) else none

/-! ### Two's complement casts (`bool` excluded) -/

/-- `core::can_cast_to_twos_compl<T>()`: integer.hpp:1300-1322. The comparisons at 1310, 1315 and 1318
have unsigned operands (or operands promoted from unsigned types), so they compare values.  -/
def canCastToTC (I : Nat) (T F : Ty) (x : Int) : Option Bool :=
  if !T.signed then do
    let mx ← shr (promote I T) T.max 1
    if !F.signed then some (decide (x ≤ mx))
    else if x ≥ 0 then some (decide (x ≤ mx))
    else do
      let y ← arith I F (-1 - x)
      some (decide (toUnsigned (promote I F) y ≤ mx))
  else some (canIntCast I T F x)

/-- `core::try_cast_to_twos_compl()`: integer.hpp:1325-1332. -/
def tryCastToTC (I : Nat) (T F : Ty) (x : Int) : Option (Option Int) := do
  let ok ← canCastToTC I T F x
  if ok then some (some (cast T x)) else some none

/-- The test for a clear sign bit: integer.hpp:1357-1358 (and 1385-1386). -/
def signBitClear (I : Nat) (F : Ty) (x : Int) (width : Nat) : Option Bool := do
  let one ← shl (promote I F) 1 (width - 1)
  some (decide (bitAnd (promote I F) x one = 0))

/-- `core::can_cast_from_twos_compl<T>()`: integer.hpp:1350-1374. -/
def canCastFromTC (I : Nat) (T F : Ty) (x : Int) : Option Bool :=
  if !F.signed then do
    let nonnegative ← signBitClear I F x F.width
    if !T.signed then some (nonnegative && decide (x ≤ T.max))
    else if nonnegative then some (decide (x ≤ toUnsigned (promote I T) T.max))
    else do
      let y ← arith I F (F.max - x)
      let mx ← arith I T (-1 - T.min)
      some (decide (toUnsigned (promote I F) y ≤ toUnsigned (promote I T) mx))
  else some (canIntCast I T F x)

/-- `core::try_cast_from_twos_compl()`: integer.hpp:1377-1413. -/
def tryCastFromTC (I : Nat) (T F : Ty) (x : Int) : Option (Option Int) :=
  if !F.signed then do
    let nonnegative ← signBitClear I F x F.width
    if !T.signed then
      if nonnegative && decide (x ≤ T.max) then some (some (cast T x)) else some none
    else if nonnegative then
      if x ≤ toUnsigned (promote I T) T.max then some (some (cast T x)) else some none
    else do
      let y ← arith I F (F.max - x)
      let mx ← arith I T (-1 - T.min)
      if toUnsigned (promote I F) y ≤ toUnsigned (promote I T) mx then do
        let z ← arith I (promote I T) (-1 - cast (promote I T) y)
        some (some (cast T z))
      else some none
  else some (tryIntCast I T F x)

/-- `core::twos_compl_sign_extend()`: integer.hpp:1540-1550. -/
def signExtend (I : Nat) (T : Ty) (x : Int) (fromWidth : Nat) : Option Int :=
  if fromWidth = 0 then none
  else if T.width > fromWidth then do
    let one ← shl (promote I T) 1 (fromWidth - 1)
    let dbl ← shl (promote I T) (bitAnd (promote I T) x one) 1
    let ext ← arith I (promote I T) (dbl - 1)
    some (cast T (bitOr (promote I T) (bitNot (promote I T) ext) x))
  else some x

/-- The check of a narrowing two's complement cast between unsigned types: integer.hpp:1479-1482 (and
1503-1506). -/
def narrowOk (I : Nat) (T F : Ty) (x : Int) : Option Bool := do
  let p := promote I F
  let one ← shl p 1 (T.width - 1)
  let dbl ← shl p (bitAnd p x one) 1
  let e ← arith I p (dbl - 1)
  let expected := bitNot p e
  let m ← shl p F.max T.width
  let actual := bitAnd p x m
  some (decide (actual = expected))

/-- `core::can_twos_compl_cast<T>()`: integer.hpp:1470-1491. -/
def canTCCast (I : Nat) (T F : Ty) (x : Int) : Option Bool :=
  if !T.signed && !F.signed then
    if T.width ≥ F.width then some true else narrowOk I T F x
  else if !T.signed then canCastToTC I T F x
  else if !F.signed then canCastFromTC I T F x
  else some (canIntCast I T F x)

/-- `core::try_twos_compl_cast()`: integer.hpp:1494-1520. -/
def tryTCCast (I : Nat) (T F : Ty) (x : Int) : Option (Option Int) :=
  if !T.signed && !F.signed then
    if T.width ≥ F.width then do
      let y ← signExtend I T (cast T x) F.width
      some (some y)
    else do
      let ok ← narrowOk I T F x
      if ok then some (some (cast T x)) else some none
  else if !T.signed then tryCastToTC I T F x
  else if !F.signed then tryCastFromTC I T F x
  else some (tryIntCast I T F x)

/-- `core::twos_compl_cast_a<T>()`: integer.hpp:1523-1537. -/
def tcCastA (I : Nat) (T F : Ty) (x : Int) : Option Int :=
  if !T.signed && !F.signed then
    if T.width ≥ F.width then signExtend I T (cast T x) F.width else some (cast T x)
  else if !T.signed then some (cast T x)
  else if !F.signed then some (castFromTwosComplA T F x)
  else some (cast T x)

/-! ### Power -/

/-- `core::strongly_promoted_type<T>`: integer.hpp:150. -/
def strong (I : Nat) (t : Ty) : Ty := common (intTy I) (promote I t)

/-- The loop of `core::try_int_pow()`: integer.hpp:1961-1971. The counter bounds the number of iterations
(each iteration halves the exponent); running out of it is the outcome `none`. -/
def powLoop (I : Nat) (B : Ty) : Nat → Int → Int → Int → Option (Option Int)
  | 0, _, _, _ => none
  | fuel + 1, result, base, exp =>
    match (if exp % 2 ≠ 0 then tryMul I B B result base else some (some result)) with
    | none => none
    | some none => some none
    | some (some result) =>
      let exp := exp / 2
      if exp = 0 then some (some result)
      else match tryMul I B B base base with
        | none => none
        | some none => some none
        | some (some base) => powLoop I B fuel result base exp

/-- `core::try_int_pow()`: integer.hpp:1954-1982. -/
def tryPow (I : Nat) (L R : Ty) (l r : Int) : Option (Option Int) :=
  let B := strong I L
  let E := strong I R
  let base := cast B l
  let exp := cast E r
  if !isNegative E exp then
    match powLoop I B (exp.toNat + 1) 1 base exp with
    | none => none
    | some none => some none
    | some (some result) => some (tryIntCast I L B result)
  else if base = 0 then some none
  else do
    let base := if intEqual I B (intTy I) base (-1) && decide (exp % 2 = 0) then 1 else base
    let result ← divOp I B 1 base
    some (tryIntCast I L B result)

/-! ### Division helpers -/

/-- `core::int_div_round_up()`: integer.hpp:2048-2059. `core::int_divmod()` for built-in types is
integer_traits.hpp:207-213. -/
def divRoundUp (I : Nat) (T U : Ty) (a b : Int) : Option Int :=
  if isNegative T a || isNegative U b then none
  else do
    let type := promote I (common T U)
    let a2 := cast type a
    let b2 := cast type b
    let quot ← divOp I type a2 b2
    let rem ← modOp I type a2 b2
    if rem ≠ 0 then do
      let q ← arith I type (quot + 1)
      some (cast T q)
    else some (cast T quot)

/-- `core::int_div_round_half_down()`: integer.hpp:2062-2073. -/
def divRoundHalfDown (I : Nat) (T U : Ty) (a b : Int) : Option Int :=
  if isNegative T a || isNegative U b then none
  else do
    let type := promote I (common T U)
    let a2 := cast type a
    let b2 := cast type b
    let quot ← divOp I type a2 b2
    let rem ← modOp I type a2 b2
    if rem ≤ cast type (Int.tdiv b 2) then some (cast T quot)
    else do
      let q ← arith I type (quot + 1)
      some (cast T q)

/-- `impl::int_odd_mod()`: integer.hpp:2079-2087. -/
def oddMod (I : Nat) (t : Ty) (a b : Int) : Option Int :=
  if intNotEqual I t (intTy I) b (-1) then modOp I t a b else some 0

/-- `impl::int_periodic_mod()`: integer.hpp:2090-2103. -/
def periodicModImpl (I : Nat) (t : Ty) (a b : Int) : Option Int := do
  let c ← oddMod I t a b
  if b ≥ 0 then if c ≥ 0 then some c else arith I t (b + c)
  else if c ≤ 0 then some c else arith I t (b + c)

/-- `core::int_periodic_mod()`: integer.hpp:2109-2131. `core::int_neg()` (2002-2010) of an unsigned value
is `~val + 1`. -/
def periodicMod (I : Nat) (T U : Ty) (a b : Int) : Option Int :=
  let type := promote I (common T U)
  let a2 := cast type a
  let b2 := cast type b
  if !type.signed && isNegative T a then do
    let r ← modOp I type (bitNot type a2) b2
    let d ← arith I type (b2 - 1)
    let e ← arith I type (d - r)
    some (cast U e)
  else if !type.signed && isNegative U b then do
    let n ← arith I type (bitNot type b2 + 1)
    let c ← modOp I type a2 n
    if c ≠ 0 then do
      let s ← arith I U (b + cast (promote I U) c)
      some (cast U s)
    else some (cast U 0)
  else do
    let r ← periodicModImpl I type a2 b2
    some (cast U r)

/-! ### Bit positions and square root -/

/-- `core::int_find_msb_pos()` for a built-in type: integer.hpp:1084-1090, integer_traits.hpp:198-204.
`std::countl_zero()` is represented by its specification: the width minus the bit length. -/
def findMsbPos (t : Ty) (x : Int) : Int :=
  let n := t.width
  let u := bitsOf t x
  let countlZero : Nat := n - (if u = 0 then 0 else Nat.log2 u + 1)
  (n : Int) - 1 - countlZero

/-- The loop of `core::int_find_msb_pos()` for types without a native implementation:
integer.hpp:1096-1112. The counter bounds the number of iterations (`j - i` decreases). -/
def msbLoop : Nat → Nat → Nat → Nat → Int
  | 0, _, i, _ => i
  | fuel + 1, v, i, j =>
    let n := (j - i) / 2
    if n > 0 then
      let w := v / 2 ^ n
      if w ≠ 0 then msbLoop fuel w (i + n) j else msbLoop fuel v i (i + n)
    else if v ≠ 0 then i else (i : Int) - 1

/-- `core::int_find_msb_pos()` for types without a native implementation: integer.hpp:1092-1115. -/
def findMsbPosGeneric (t : Ty) (x : Int) : Int :=
  if !isNegative t x then msbLoop (t.bits + 1) x.toNat 0 t.bits else t.bits

/-- The loop of `core::int_find_msd_pos()`: integer.hpp:1124-1129. Running out of the counter (an infinite loop
in the code) is the outcome `none`. -/
def msdLoop (I : Nat) (type : Ty) (base : Int) : Nat → Int → Int → Option Int
  | 0, _, _ => none
  | fuel + 1, v, i =>
    if v ≠ 0 then do
      let w ← divOp I type v base
      msdLoop I type base fuel w (i + 1)
    else some i

/-- `core::int_find_msd_pos()`: integer.hpp:1118-1132. `base` is of type `int`, and is converted to the
strongly promoted type. -/
def findMsdPos (I : Nat) (t : Ty) (x base : Int) : Option Int :=
  let type := strong I t
  let v := cast type x
  if cast type base ≤ type.max then
    msdLoop I type (cast type base) (v.natAbs + 1) v (-1)
  else some (if v ≠ 0 then 0 else -1)

/-- `core::int_num_digits()`: integer.hpp:1135-1138. -/
def numDigits (I : Nat) (t : Ty) (x base : Int) : Option Int := do
  let p ← findMsdPos I t x base
  some (1 + p)

/-- The loop of `core::int_sqrt()`: integer.hpp:2141-2146. The counter bounds the number of iterations
(`v_0` decreases). -/
def sqrtLoop (I : Nat) (type : Ty) (v : Int) : Nat → Int → Option Int
  | 0, _ => none
  | fuel + 1, v0 => do
    let q ← divOp I type v v0
    let s ← arith I type (v0 + q)
    let v1 ← shr type s 1
    if v1 < v0 then sqrtLoop I type v fuel v1 else some v0

/-- `core::int_sqrt()`: integer.hpp:2134-2150. -/
def intSqrt (I : Nat) (T : Ty) (x : Int) : Option Int :=
  if isNegative T x then none
  else
    let type := promote I T
    let v := cast type x
    if v ≠ 0 then do
      let v0 ← shl type 1 ((Int.tdiv (findMsbPos (unsignedOf type) (toUnsigned type v)) 2 + 1).toNat)
      let r ← sqrtLoop I type v (v0.toNat + 1) v0
      some (cast T r)
    else some x

/-! ### Shifts and masks -/

/-- `core::try_int_arith_shift_left()`: integer.hpp:1984-1999. -/
def tryShl (I : Nat) (T : Ty) (x : Int) (i : Int) : Option (Option Int) :=
  if isNegative T x || decide (i < 0) then none
  else if i < (promote I T).bits then do
    let m ← shr (promote I T) T.max i.toNat
    if m ≥ x then do
      let y ← shl (promote I T) x i.toNat
      some (some (cast T y))
    else some none
  else if x = 0 then some (some x) else some none

/-- `core::int_logic_shift_left()`: integer.hpp:1671-1681. Only for unsigned types. -/
def logicShl (I : Nat) (T : Ty) (x : Int) (i : Int) : Option Int :=
  if i < 0 then none
  else if i < (promote I T).bits then do
    let y ← shl (promote I T) x i.toNat
    some (cast T y)
  else some 0

/-- `core::int_logic_shift_right()`: integer.hpp:1684-1694. -/
def logicShr (I : Nat) (T : Ty) (x : Int) (i : Int) : Option Int :=
  if isNegative T x || decide (i < 0) then none
  else if i < (promote I T).bits then do
    let y ← shr (promote I T) x i.toNat
    some (cast T y)
  else some 0

/-- `core::int_mask()`: integer.hpp:1192-1203. -/
def intMask (I : Nat) (T : Ty) (n : Int) : Option Int :=
  if n > 0 then do
    let extra := if n ≤ T.bits then T.bits - n else 0
    let y ← shr (promote I T) T.max extra.toNat
    some (cast T y)
  else some 0

/-- `core::int_is_power_of_two()`: integer.hpp:1075-1081. -/
def isPowerOfTwo (I : Nat) (T : Ty) (x : Int) : Option Bool :=
  let type := promote I T
  let v := cast type x
  if v > 0 then do
    let w ← arith I type (v - 1)
    some (decide (bitAnd type v w = 0))
  else some false

end Verif.Integer
