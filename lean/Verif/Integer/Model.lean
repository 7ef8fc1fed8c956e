/-
Model of the arithmetic of built-in C++ integer types, and of
/repo/src/archon/core/integer.hpp (checked arithmetic, comparison, casts, division, roots).

An integer type is its signedness and its number of value bits; signed types are two's complement (as
required by C++20, which the code relies on in integer_traits.hpp:219-221). A value of a type is a
mathematical integer in the range of the type. `I` is the number of value bits of `int` (31 on common
platforms); every type with no more value bits than `int` is promoted to `int` in arithmetic.
Types: all built-in integer types, of any width. User defined integer types are not covered (except
that `MulPrecInt` is modelled separately).

Undefined behaviour (signed overflow, division by zero, bad shift) and assertion failure are the
outcome `none`. A function that returns `bool` and assigns to a reference argument on success returns
`Option Int`: `some` new value, or `none` when it returns `false` (the referenced variable keeps its
value); so its result type is `Option (Option Int)`.
-/
namespace Verif.Integer

/-- An integer type: `core::is_signed<T>()` and `core::num_value_bits<T>()` (integer.hpp:1019-1032). -/
structure Ty where
  signed : Bool
  bits : Nat
deriving DecidableEq, Repr

/-- `core::int_min<T>()`: integer.hpp:1059-1064. -/
def Ty.min (t : Ty) : Int := if t.signed then -(2 ^ t.bits) else 0

/-- `core::int_max<T>()`: integer.hpp:1067-1072. -/
def Ty.max (t : Ty) : Int := 2 ^ t.bits - 1

/-- `core::int_width<T>()`: integer.hpp:1041-1045. -/
def Ty.width (t : Ty) : Nat := t.bits + (if t.signed then 1 else 0)

/-- The value is in the range of the type. -/
def Ty.In (t : Ty) (x : Int) : Prop := t.min ≤ x ∧ x ≤ t.max

instance (t : Ty) (x : Int) : Decidable (t.In x) := inferInstanceAs (Decidable (_ ∧ _))

/-- Conversion to an integer type, `core::int_cast_a()`: integer.hpp:1236-1265. Modulo the width of the
type; `bool` is treated as an unsigned type with one bit, as the function does. -/
def cast (t : Ty) (x : Int) : Int :=
  if t.signed then (x + 2 ^ t.bits) % 2 ^ (t.bits + 1) - 2 ^ t.bits else x % 2 ^ t.bits

def intTy (I : Nat) : Ty := ⟨true, I⟩
def uintTy (I : Nat) : Ty := ⟨false, I + 1⟩

/-- `core::promoted_type<T>` (integer.hpp:139): integral promotion. -/
def promote (I : Nat) (t : Ty) : Ty := if t.bits ≤ I then intTy I else t

/-- `core::unsigned_type<T>` (integer.hpp:226, integer_traits.hpp:128). -/
def unsignedOf (t : Ty) : Ty := if t.signed then ⟨false, t.bits + 1⟩ else t

/-- `core::common_int_type<T, U>`: integer.hpp:939-984. -/
def common (t u : Ty) : Ty :=
  if t.signed then
    if u.signed then if t.bits > u.bits ∨ cast u (t.min + 1) ≤ u.min + 1 then t else u
    else if t.bits ≥ u.bits then t else u
  else
    if u.signed then if u.bits ≥ t.bits then u else t
    else if t.bits ≥ u.bits then t else u

/-- The value of an arithmetic operation whose operands have type `t` and whose mathematical result is
`x`. It has type `promote I t`. Overflow of a signed type is undefined behaviour. -/
def arith (I : Nat) (t : Ty) (x : Int) : Option Int :=
  let p := promote I t
  if p.signed then if p.In x then some x else none
  else some (x % 2 ^ p.bits)

/-- Division `x / y` with operands of type `t`: division by zero, and overflow, are undefined. -/
def divOp (I : Nat) (t : Ty) (x y : Int) : Option Int :=
  if y = 0 then none else arith I t (Int.tdiv x y)

/-- Remainder `x % y` with operands of type `t`: undefined if the quotient is not representable. -/
def modOp (I : Nat) (t : Ty) (x y : Int) : Option Int :=
  if y = 0 then none else do
    let _ ← arith I t (Int.tdiv x y)
    arith I t (Int.tmod x y)

/-- `core::to_unsigned()`: integer.hpp:1011-1016. -/
def toUnsigned (t : Ty) (x : Int) : Int := cast (unsignedOf t) x

/-- `core::is_negative()`: integer.hpp:1154-1163. -/
def isNegative (t : Ty) (x : Int) : Bool := t.signed && decide (x < 0)

/-! ### Comparison and casts -/

/-- `core::int_equal()`: integer.hpp:1553-1575. -/
def intEqual (I : Nat) (A B : Ty) (a b : Int) : Bool :=
  let type := promote I (common A B)
  if !A.signed then
    if !B.signed then cast type a == cast type b
    else !isNegative B b && cast type a == cast type b
  else
    if !B.signed then !isNegative A a && cast type a == cast type b
    else cast type a == cast type b

/-- `core::int_not_equal()`: integer.hpp:1578-1581. -/
def intNotEqual (I : Nat) (A B : Ty) (a b : Int) : Bool := !intEqual I A B a b

/-- `core::int_less()`: integer.hpp:1585-1610. -/
def intLess (I : Nat) (A B : Ty) (a b : Int) : Bool :=
  let type := promote I (common A B)
  if !A.signed then
    if !B.signed then decide (cast type a < cast type b)
    else !isNegative B b && decide (cast type a < cast type b)
  else
    if !B.signed then isNegative A a || decide (cast type a < cast type b)
    else decide (cast type a < cast type b)

/-- `core::int_less_equal()`: integer.hpp:1613-1616. -/
def intLessEqual (I : Nat) (A B : Ty) (a b : Int) : Bool := !intLess I B A b a

/-- `core::int_greater()`: integer.hpp:1619-1622. -/
def intGreater (I : Nat) (A B : Ty) (a b : Int) : Bool := intLess I B A b a

/-- `core::int_greater_equal()`: integer.hpp:1625-1628. -/
def intGreaterEqual (I : Nat) (A B : Ty) (a b : Int) : Bool := !intLess I A B a b

/-- `core::can_int_cast()`: integer.hpp:1220-1223. -/
def canIntCast (I : Nat) (T F : Ty) (x : Int) : Bool :=
  intGreaterEqual I F T x T.min && intLessEqual I F T x T.max

/-- `core::try_int_cast()`: integer.hpp:1226-1233. -/
def tryIntCast (I : Nat) (T F : Ty) (x : Int) : Option Int :=
  if canIntCast I T F x then some (cast T x) else none

/-- `core::int_cast_clamp()`: integer.hpp:1268-1276. -/
def intCastClamp (I : Nat) (T F : Ty) (x lo hi : Int) : Int :=
  if intGreaterEqual I F T x lo then
    if intLessEqual I F T x hi then cast T x else hi
  else lo

/-! ### Addition, subtraction, multiplication -/

/-- `core::cast_from_twos_compl_a<T>()` from an unsigned type `F` to a signed type (both built-in):
integer.hpp:1416-1455. `core::int_bit_copy()` is represented by its effect: the bits are interpreted as
two's complement in `F`, and the value is converted to `T`. -/
def castFromTwosComplA (T F : Ty) (x : Int) : Int :=
  if x ≥ 2 ^ (F.bits - 1) then cast T (x - 2 ^ F.bits) else cast T x

/-- `core::try_int_add()`, unsigned plus unsigned: integer.hpp:1718-1730. -/
def tryAddUU (I : Nat) (L R : Ty) (l r : Int) : Option (Option Int) := do
  let type := common (uintTy I) (common L R)
  let l2 := cast type l
  let r2 := cast type r
  let d ← arith I type (cast type L.max - l2)
  if r2 > d then some none
  else do
    let s ← arith I type (l2 + r2)
    some (some (cast L s))

/-- Overflow condition for signed plus signed: integer.hpp:1776-1778. -/
def addSSOverflow (I : Nat) (L type : Ty) (l2 r2 : Int) : Option Bool :=
  if isNegative type r2 then do
    let d ← arith I type (cast type L.min - r2)
    some (decide (l2 < d))
  else do
    let d ← arith I type (cast type L.max - r2)
    some (decide (l2 > d))

/-- `core::try_int_add()`, signed plus signed: integer.hpp:1769-1784. -/
def tryAddSS (I : Nat) (L R : Ty) (l r : Int) : Option (Option Int) := do
  let type := common L R
  let l2 := cast type l
  let r2 := cast type r
  let overflow ← addSSOverflow I L type l2 r2
  if overflow then some none
  else do
    let s ← arith I type (l2 + r2)
    some (some (cast L s))

/-- `core::try_int_add()`: integer.hpp:1715-1786. -/
def tryAdd (I : Nat) (L R : Ty) (l r : Int) : Option (Option Int) :=
  if !L.signed then
    if !R.signed then tryAddUU I L R l r
    else if isNegative R r then do
      let type := common (uintTy I) (common L (unsignedOf R))
      let l2 := cast type l
      let m ← arith I R (-1 - r)
      if cast type m ≥ l2 then some none
      else do
        let s ← arith I type (l2 + cast type r)
        some (some (cast L s))
    else tryAddUU I L (unsignedOf R) l (toUnsigned R r)
  else
    if !R.signed then
      if L.bits ≥ R.bits then tryAddSS I L L l (cast L r)
      else do
        let type := common (uintTy I) R
        let l2 := cast type l
        let r2 := cast type r
        let maxAdd ← arith I type (cast type L.max - l2)
        if r2 > maxAdd then some none
        else do
          let s ← arith I type (l2 + r2)
          some (some (castFromTwosComplA L type s))
    else tryAddSS I L R l r

/-- `core::try_int_sub()`, unsigned minus unsigned: integer.hpp:1791-1803. -/
def trySubUU (I : Nat) (L R : Ty) (l r : Int) : Option (Option Int) := do
  let type := common (uintTy I) (common L R)
  let l2 := cast type l
  let r2 := cast type r
  if r2 > l2 then some none
  else do
    let s ← arith I type (l2 - r2)
    some (some (cast L s))

/-- Overflow condition for signed minus signed: integer.hpp:1850-1852. -/
def subSSOverflow (I : Nat) (L type : Ty) (l2 r2 : Int) : Option Bool :=
  if isNegative type r2 then do
    let d ← arith I type (cast type L.max + r2)
    some (decide (l2 > d))
  else do
    let d ← arith I type (cast type L.min + r2)
    some (decide (l2 < d))

/-- `core::try_int_sub()`, signed minus signed: integer.hpp:1843-1858. -/
def trySubSS (I : Nat) (L R : Ty) (l r : Int) : Option (Option Int) := do
  let type := common L R
  let l2 := cast type l
  let r2 := cast type r
  let overflow ← subSSOverflow I L type l2 r2
  if overflow then some none
  else do
    let s ← arith I type (l2 - r2)
    some (some (cast L s))

/-- `core::try_int_sub()`: integer.hpp:1788-1860. -/
def trySub (I : Nat) (L R : Ty) (l r : Int) : Option (Option Int) :=
  if !L.signed then
    if !R.signed then trySubUU I L R l r
    else if isNegative R r then do
      let type := common (uintTy I) (common L (unsignedOf R))
      let l2 := cast type l
      let m ← arith I R (-1 - r)
      let d ← arith I type (cast type L.max - l2)
      if cast type m ≥ d then some none
      else do
        let s ← arith I type (l2 - cast type r)
        some (some (cast L s))
    else trySubUU I L (unsignedOf R) l (toUnsigned R r)
  else
    if !R.signed then
      if L.bits ≥ R.bits then trySubSS I L L l (cast L r)
      else do
        let type := common (uintTy I) R
        let l2 := cast type l
        let r2 := cast type r
        let maxSub ← arith I type (l2 - cast type L.min)
        if r2 > maxSub then some none
        else do
          let s ← arith I type (l2 - r2)
          some (some (castFromTwosComplA L type s))
    else trySubSS I L R l r

/-- The part of `core::try_int_mul()` for negative times positive with unsigned `R`:
integer.hpp:1895-1911. -/
def tryMulNegPosU (I : Nat) (L R : Ty) (l r : Int) : Option (Option Int) := do
  let type := common (intTy I) (common L R)
  let r2 := cast type r
  if r2 ≤ cast type L.max then do
    let l2 := cast type l
    let q ← divOp I L L.min (cast L r)
    if l2 ≥ cast type q then do
      let s ← arith I type (l2 * r2)
      some (some (cast L s))
    else some none
  else do
    let d ← arith I type (r2 - 1)
    let m ← arith I L (-1 - L.min)
    if d ≤ cast type m then
      if l = -1 then some (some L.min) else some none
    else some none

/-- `core::try_int_mul()`: integer.hpp:1862-1951. -/
def tryMul (I : Nat) (L R : Ty) (l r : Int) : Option (Option Int) :=
  let type := common (intTy I) (common L R)
  let l2 := cast type l
  let r2 := cast type r
  if r ≠ 0 then
    if !isNegative R r then
      if !isNegative L l then do
        let max ← divOp I type (cast type L.max) r2
        if l2 ≤ max then do
          let s ← arith I type (l2 * r2)
          some (some (cast L s))
        else some none
      else if R.signed then do
        let min ← divOp I type (cast type L.min) r2
        if l2 ≥ min then do
          let s ← arith I type (l2 * r2)
          some (some (cast L s))
        else some none
      else tryMulNegPosU I L R l r
    else
      if !isNegative L l then
        if L.signed then
          if r ≠ -1 then do
            let max ← divOp I type (cast type L.min) r2
            if l2 ≤ max then do
              let s ← arith I type (l2 * r2)
              some (some (cast L s))
            else some none
          else do
            let s ← arith I L (-l)
            some (some (cast L s))
        else if l = 0 then some (some l) else some none
      else do
        let min ← divOp I type (cast type L.max) r2
        if l2 ≥ min then do
          let s ← arith I type (l2 * r2)
          some (some (cast L s))
        else some none
  else some (some 0)

end Verif.Integer
