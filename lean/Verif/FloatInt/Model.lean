import Mathlib.Data.Rat.Floor
import Mathlib.Algebra.Order.Floor.Ring

/-!
# Model of comparison and conversion between floating-point and integer values

Model of `/repo/src/archon/core/float.hpp`. The floating-point type is given by the operations that the code uses. What can be
assumed about these operations is stated in the specification (the basic requirements for floating-point types in
`/repo/src/archon/core/float_traits.hpp`).

The result of each function that is able to invoke undefined behavior is optional, and is absent when behavior is undefined.
-/

namespace Verif.FloatInt

/-- Floating-point values. The finite values are rational numbers, because that is what floating-point numbers are. A distinction between
positive and negative zero is not made. -/
inductive Val where
  | nan
  | ninf
  | pinf
  | fin (q : ℚ)
deriving DecidableEq

/-- The comparison `a < b` (`/repo/src/archon/core/float_traits.hpp:82-90`, requirement 5). -/
def Val.lt : Val → Val → Bool
  | .fin a, .fin b => a < b
  | .fin _, .pinf => true
  | .ninf, .fin _ => true
  | .ninf, .pinf => true
  | _, _ => false

/-- The comparison `a <= b` (`/repo/src/archon/core/float_traits.hpp:82-90`, requirement 5). -/
def Val.le : Val → Val → Bool
  | .fin a, .fin b => a ≤ b
  | .fin _, .pinf => true
  | .ninf, .fin _ => true
  | .ninf, .pinf => true
  | .ninf, .ninf => true
  | .pinf, .pinf => true
  | _, _ => false

/-- A floating-point type: the finite values that can be represented, the radix, the conversion from integer, the function
`nextafter(f, 0)`, and division (`/repo/src/archon/core/float_traits.hpp:37-161`). -/
structure FloatType where
  rep : ℚ → Prop
  radix : ℤ
  ofInt : ℤ → Val
  next : Val → Val
  div : Val → Val → Val

/-- A standard integer type: its lowest and highest values, those of its promotion, and whether it is signed. -/
structure IntType where
  lo : ℤ
  hi : ℤ
  plo : ℤ
  phi : ℤ
  signed : Bool

/-- Rounding towards zero. -/
def trunc (x : ℚ) : ℤ := if 0 ≤ x then ⌊x⌋ else ⌈x⌉

/-- `std::trunc()`. -/
def Val.trunc : Val → Val
  | .fin q => .fin (FloatInt.trunc q)
  | v => v

/-- The comparison `a == b` (`/repo/src/archon/core/float_traits.hpp:82-90`, requirement 5). -/
def Val.eq (a b : Val) : Bool := a.le b && b.le a

/-- The conversion `P(val)` where `P` is the promoted type (`/repo/src/archon/core/float_traits.hpp:105-110`, requirement 8). -/
def toPromoted (I : IntType) : Val → Option ℤ
  | .fin q => if I.plo ≤ trunc q ∧ trunc q ≤ I.phi then some (trunc q) else none
  | _ => none

/-- `int_cast_a()`: conversion to the integer type modulo the number of values. -/
def IntType.wrap (I : IntType) (i : ℤ) : ℤ := I.lo + (i - I.lo) % (I.hi - I.lo + 1)

/-- `float_to_int_a()` (`/repo/src/archon/core/float.hpp:386-396`). -/
def floatToIntA (I : IntType) (val : Val) : Option ℤ := (toPromoted I val).map I.wrap

/-- `min_float_not_below_nonpos_int()` (`/repo/src/archon/core/float.hpp:413-435`). The assertion is not modelled. -/
def minFloatNotBelow (F : FloatType) (I : IntType) (i : ℤ) : Option Val :=
  let f := F.ofInt i
  if i ≥ -1 then some f
  else
    match toPromoted I (F.div f (F.ofInt F.radix)) with
    | none => none
    | some q => if q ≥ i.tdiv F.radix then some f else some (F.next f)

/-- `max_float_not_above_nonneg_int()` (`/repo/src/archon/core/float.hpp:438-529`). The assertion is not modelled. -/
def maxFloatNotAbove (F : FloatType) (I : IntType) (i : ℤ) : Option Val :=
  let f := F.ofInt i
  if i ≤ 1 then some f
  else
    match toPromoted I (F.div f (F.ofInt F.radix)) with
    | none => none
    | some q => if q ≤ i.tdiv F.radix then some f else some (F.next f)

/-- `min_float_for_int()` (`/repo/src/archon/core/float.hpp:399-403`). -/
def minFloat (F : FloatType) (I : IntType) : Option Val := minFloatNotBelow F I I.lo

/-- `max_float_for_int()` (`/repo/src/archon/core/float.hpp:406-410`). -/
def maxFloat (F : FloatType) (I : IntType) : Option Val := maxFloatNotAbove F I I.hi

/-- `float_equal_int()` (`/repo/src/archon/core/float.hpp:280-286`). -/
def floatEqualInt (F : FloatType) (I : IntType) (v : Val) (n : ℤ) : Option Bool := do
  if (← minFloat F I).le v then
    if v.le (← maxFloat F I) then
      if v.trunc.eq v then return (← floatToIntA I v) == n
  return false

/-- `float_less_int()` (`/repo/src/archon/core/float.hpp:289-300`). -/
def floatLessInt (F : FloatType) (I : IntType) (v : Val) (n : ℤ) : Option Bool := do
  if v.lt (F.ofInt 0) then
    if I.signed then
      let v2 := F.next v
      if v.lt (← minFloat F I) then return true
      return (← floatToIntA I v2) ≤ n
    return v.lt (F.ofInt 0)
  if v.le (← maxFloat F I) then return (← floatToIntA I v) < n
  return false

/-- `float_greater_int()` (`/repo/src/archon/core/float.hpp:303-314`). -/
def floatGreaterInt (F : FloatType) (I : IntType) (v : Val) (n : ℤ) : Option Bool := do
  if (F.ofInt 0).lt v then
    let v2 := F.next v
    if (← maxFloat F I).lt v then return true
    return (← floatToIntA I v2) ≥ n
  if I.signed then
    if (← minFloat F I).le v then return (← floatToIntA I v) > n
    return false
  return (F.ofInt 0).lt v

/-- `float_less_equal_int()` (`/repo/src/archon/core/float.hpp:317-328`). -/
def floatLessEqualInt (F : FloatType) (I : IntType) (v : Val) (n : ℤ) : Option Bool := do
  if v.le (F.ofInt 0) then
    if I.signed then
      if v.lt (← minFloat F I) then return true
      return (← floatToIntA I v) ≤ n
    return v.le (F.ofInt 0)
  let v2 := F.next v
  if v.le (← maxFloat F I) then return (← floatToIntA I v2) < n
  return false

/-- `float_greater_equal_int()` (`/repo/src/archon/core/float.hpp:331-341`). -/
def floatGreaterEqualInt (F : FloatType) (I : IntType) (v : Val) (n : ℤ) : Option Bool := do
  if (F.ofInt 0).le v then
    if (← maxFloat F I).lt v then return true
    return (← floatToIntA I v) ≥ n
  if I.signed then
    let v2 := F.next v
    if (← minFloat F I).le v then return (← floatToIntA I v2) > n
    return false
  return (F.ofInt 0).le v

/-- `clamped_float_to_int()` (`/repo/src/archon/core/float.hpp:344-355`). -/
def clampedFloatToInt (F : FloatType) (I : IntType) (v : Val) : Option ℤ := do
  if (← minFloat F I).le v then
    if v.le (← maxFloat F I) then return ← floatToIntA I v
    return I.hi
  if v.lt (← minFloat F I) then return I.lo
  return 0

/-- `try_float_to_int()` (`/repo/src/archon/core/float.hpp:358-367`). The inner result is the new value of the integer if the function
returns `true`. -/
def tryFloatToInt (F : FloatType) (I : IntType) (v : Val) : Option (Option ℤ) := do
  if (← minFloat F I).le v then
    if v.le (← maxFloat F I) then return some (← floatToIntA I v)
  return none

end Verif.FloatInt
