import Verif.Integer.Model2
/-!
Model of multiple precision integers: /repo/src/archon/core/mul_prec_int.hpp.

`I` is the number of value bits of `int`, `w` the width of the part type (`s_part_width`), `N` the number of parts, and `S`
tells whether the type is signed. Arrays are lists of natural numbers. `none` is undefined behavior (overflow of a signed
type, bad shift amount, division by zero, access outside an array) or a failed assertion. Expressions are evaluated in the
promoted type of the part type with the operations of `Verif.Integer`.
-/
namespace Verif.MulPrec
open Verif.Integer

/-- The part type. -/
abbrev T (w : Nat) : Ty := ⟨false, w⟩

/-- The type of expressions that involve parts. -/
abbrev P (I w : Nat) : Ty := promote I (T w)

/-- Conversion to the part type. -/
def toT (w : Nat) (x : Int) : Nat := (cast (T w) x).toNat

/-- Reading an element of an array. -/
def rd (xs : List Nat) (i : Nat) : Option Nat := xs[i]?

/-- Writing an element of an array. -/
def wr (xs : List Nat) (i v : Nat) : Option (List Nat) := if i < xs.length then some (xs.set i v) else none

/-- A counting loop: `k` turns, beginning with index `i`. -/
def loop (body : Nat → σ → Option σ) : (k i : Nat) → σ → Option σ
  | 0, _, st => some st
  | k + 1, i, st => do
    let st ← body i st
    loop body k (i + 1) st

/-- `s_subpart_width`: mul_prec_int.hpp:152. -/
def subw (w : Nat) : Nat := w / 2

/-- `s_num_subparts`: mul_prec_int.hpp:154. -/
def nsub (w N : Nat) : Nat := (w * N + (subw w - 1)) / subw w

/-- `s_subpart_mask`: mul_prec_int.hpp:155. -/
def mask (I w : Nat) : Option Nat := do some (← intMask I (T w) (subw w)).toNat

/-- `is_nonneg()`: mul_prec_int.hpp:260-268. -/
def isNonneg (I w N : Nat) (S : Bool) (a : List Nat) : Option Bool :=
  if S then do
    let x ← shr (P I w) (← rd a (N - 1)) (w - 1)
    some (x == 0)
  else some true

/-- `partial_add()`: mul_prec_int.hpp:793-800. -/
def partialAdd (I w : Nat) (lval rval : Nat) (carry : Bool) : Option (Nat × Bool) := do
  let lval2 := toT w (← arith I (T w) (lval + rval))
  let lval3 := toT w (← arith I (T w) (lval2 + carry.toNat))
  some (lval3, lval2 < lval || lval3 < lval2)

/-- `partial_sub()`: mul_prec_int.hpp:804-811. -/
def partialSub (I w : Nat) (lval rval : Nat) (carry : Bool) : Option (Nat × Bool) := do
  let lval2 := toT w (← arith I (T w) (lval - rval))
  let lval3 := toT w (← arith I (T w) (lval2 - carry.toNat))
  some (lval3, lval2 > lval || lval3 > lval2)

/-- `operator+`: mul_prec_int.hpp:296-303. -/
def add (I w N : Nat) (a b : List Nat) : Option (List Nat) := do
  let (res, _) ← loop (fun i (res, carry) => do
    let (v, carry) ← partialAdd I w (← rd res i) (← rd b i) carry
    some (← wr res i v, carry)) N 0 (a, false)
  some res

/-- `operator-`: mul_prec_int.hpp:307-314. -/
def sub (I w N : Nat) (a b : List Nat) : Option (List Nat) := do
  let (res, _) ← loop (fun i (res, carry) => do
    let (v, carry) ← partialSub I w (← rd res i) (← rd b i) carry
    some (← wr res i v, carry)) N 0 (a, false)
  some res

/-- The default constructor: mul_prec_int.hpp:93, 149. -/
def zero (N : Nat) : List Nat := List.replicate N 0

/-- Unary `operator-`: mul_prec_int.hpp:279-282. -/
def neg (I w N : Nat) (a : List Nat) : Option (List Nat) := sub I w N (zero N) a

/-- `operator~`: mul_prec_int.hpp:286-292. -/
def bnot (I w N : Nat) (a : List Nat) : Option (List Nat) :=
  loop (fun i res => do wr res i (toT w (bitNot (P I w) (← rd a i)))) N 0 (zero N)

/-- `operator&`: mul_prec_int.hpp:350-356. -/
def band (I w N : Nat) (a b : List Nat) : Option (List Nat) :=
  loop (fun i res => do wr res i (toT w (bitAnd (P I w) (← rd a i) (← rd b i)))) N 0 (zero N)

/-- `operator|`: mul_prec_int.hpp:360-366. -/
def bor (I w N : Nat) (a b : List Nat) : Option (List Nat) :=
  loop (fun i res => do wr res i (toT w (bitOr (P I w) (← rd a i) (← rd b i)))) N 0 (zero N)

/-- The operation of `^` in type `t`. -/
def bitXor (t : Ty) (x y : Int) : Int := cast t ((bitsOf t x ^^^ bitsOf t y : Nat) : Int)

/-- `operator^`: mul_prec_int.hpp:370-376. -/
def bxor (I w N : Nat) (a b : List Nat) : Option (List Nat) :=
  loop (fun i res => do wr res i (toT w (bitXor (P I w) (← rd a i) (← rd b i)))) N 0 (zero N)

/-- `operator<<`: mul_prec_int.hpp:380-396. -/
def shiftLeft (I w N : Nat) (x : List Nat) (n : Nat) : Option (List Nat) := do
  let m := n % (N * w)
  let a := m / w
  let b := m % w
  let res := zero N
  if b ≠ 0 then do
    let res ← wr res a (toT w (← shl (P I w) (← rd x 0) b))
    loop (fun i res => do
      let hi ← shl (P I w) (← rd x i) b
      let lo ← shr (P I w) (← rd x (i - 1)) (w - b)
      wr res (a + i) (toT w (bitOr (P I w) hi lo))) (N - a - 1) 1 res
  else
    loop (fun i res => do wr res (a + i) (← rd x i)) (N - a) 0 res

/-- `operator>>`: mul_prec_int.hpp:400-416. -/
def shiftRight (I w N : Nat) (x : List Nat) (n : Nat) : Option (List Nat) := do
  let m := n % (N * w)
  let a := m / w
  let b := m % w
  let res := zero N
  if b ≠ 0 then do
    let res ← loop (fun i res => do
      let lo ← shr (P I w) (← rd x (a + i)) b
      let hi ← shl (P I w) (← rd x (a + i + 1)) (w - b)
      wr res i (toT w (bitOr (P I w) lo hi))) (N - 1 - a) 0 res
    wr res (N - 1 - a) (toT w (← shr (P I w) (← rd x (N - 1)) b))
  else
    loop (fun i res => do wr res i (← rd x (i + a))) (N - a) 0 res

/-- The loop of `operator==`: mul_prec_int.hpp:492-497. The number of parts that remain to be compared is the argument. -/
def eqLoop (a b : List Nat) : Nat → Option Bool
  | 0 => some true
  | k + 1 => do
    if (← rd a k) = (← rd b k) then eqLoop a b k
    else some false

/-- `operator==`: mul_prec_int.hpp:490-498. -/
def eq (N : Nat) (a b : List Nat) : Option Bool := eqLoop a b N

/-- The loop of `unsigned_less()`: mul_prec_int.hpp:735-739. -/
def lessLoop (a b : List Nat) : Nat → Option Bool
  | 0 => some false
  | k + 1 => do
    if (← rd a k) = (← rd b k) then lessLoop a b k
    else some (decide ((← rd a k) < (← rd b k)))

/-- `unsigned_less()`: mul_prec_int.hpp:733-741. -/
def unsignedLess (N : Nat) (a b : List Nat) : Option Bool := lessLoop a b N

/-- `operator<`: mul_prec_int.hpp:509-514. -/
def less (I w N : Nat) (S : Bool) (a b : List Nat) : Option Bool := do
  let x ← unsignedLess N a b
  let y := (← isNonneg I w N S a) == (← isNonneg I w N S b)
  some (x == y)

/-- `operator<=`: mul_prec_int.hpp:518-521. -/
def lessEqual (I w N : Nat) (S : Bool) (a b : List Nat) : Option Bool := do some (!(← less I w N S b a))

/-- `operator>`: mul_prec_int.hpp:525-528. -/
def greater (I w N : Nat) (S : Bool) (a b : List Nat) : Option Bool := less I w N S b a

/-- `operator>=`: mul_prec_int.hpp:532-535. -/
def greaterEqual (I w N : Nat) (S : Bool) (a b : List Nat) : Option Bool := do some (!(← less I w N S a b))

/-- `min()`: mul_prec_int.hpp:558-564. -/
def minVal (I w N : Nat) (S : Bool) : Option (List Nat) :=
  if S then do wr (zero N) (N - 1) (toT w (← shl (P I w) (toT w 1) (w - 1)))
  else some (zero N)

/-- `max()`: mul_prec_int.hpp:568-577. -/
def maxVal (I w N : Nat) (S : Bool) : Option (List Nat) := do
  let max := (T w).max.toNat
  let parts ← loop (fun i parts => wr parts i max) N 0 (zero N)
  if S then wr parts (N - 1) (toT w (← divOp I (T w) max 2))
  else some parts

/-- The loop of `find_msb_pos()`: mul_prec_int.hpp:583-589. -/
def msbLoop (w : Nat) (a : List Nat) : Nat → Option Int
  | 0 => some (-1)
  | j + 1 => do
    let part ← rd a j
    if part ≠ 0 then some (j * w + findMsbPos (T w) part)
    else msbLoop w a j

/-- `find_msb_pos()`: mul_prec_int.hpp:581-590. -/
def findMsb (w N : Nat) (a : List Nat) : Option Int := msbLoop w a N

/-! ### Subparts -/

/-- The state of the loop of `scatter()`. -/
structure ScatterState where
  subparts : List Nat
  partIndex : Nat
  part : Nat
  offset : Nat

/-- The body of the loop of `scatter()`: mul_prec_int.hpp:752-763. -/
def scatterStep (I w N : Nat) (parts : List Nat) (i : Nat) (st : ScatterState) : Option ScatterState := do
  let bits := toT w (← shr (P I w) st.part st.offset)
  let offset := st.offset + subw w
  if offset ≥ w then
    let partIndex := st.partIndex + 1
    let offset := offset - w
    if partIndex < N then
      let part ← rd parts partIndex
      let bits := toT w (bitOr (P I w) bits (← shl (P I w) part (subw w - offset)))
      some ⟨← wr st.subparts i (toT w (bitAnd (P I w) bits (← mask I w))), partIndex, part, offset⟩
    else if i = nsub w N - 1 then
      some ⟨← wr st.subparts i (toT w (bitAnd (P I w) bits (← mask I w))), partIndex, st.part, offset⟩
    else none
  else
    some ⟨← wr st.subparts i (toT w (bitAnd (P I w) bits (← mask I w))), st.partIndex, st.part, offset⟩

/-- `scatter()`: mul_prec_int.hpp:745-766. -/
def scatter (I w N : Nat) (parts : List Nat) : Option (List Nat) := do
  let part ← rd parts 0
  let st ← loop (scatterStep I w N parts) (nsub w N) 0 ⟨zero (nsub w N), 0, part, 0⟩
  some st.subparts

/-- The state of the loop of `gather()`. -/
structure GatherState where
  parts : List Nat
  partIndex : Nat
  part : Nat
  offset : Nat

/-- The body of the loop of `gather()`: mul_prec_int.hpp:777-787. -/
def gatherStep (I w N : Nat) (subparts : List Nat) (i : Nat) (st : GatherState) : Option GatherState := do
  let subpart ← rd subparts i
  let part := toT w (bitOr (P I w) st.part (← shl (P I w) subpart st.offset))
  let offset := st.offset + subw w
  if offset ≥ w then
    if st.partIndex < N then
      let parts ← wr st.parts st.partIndex part
      let partIndex := st.partIndex + 1
      let offset := offset - w
      let part := toT w (← shr (P I w) subpart (subw w - offset))
      some ⟨parts, partIndex, part, offset⟩
    else none
  else some ⟨st.parts, st.partIndex, part, offset⟩

/-- `gather()`: mul_prec_int.hpp:770-789. -/
def gather (I w N : Nat) (subparts : List Nat) : Option (List Nat) := do
  let st ← loop (gatherStep I w N subparts) (nsub w N) 0 ⟨zero N, 0, 0, 0⟩
  some st.parts

/-! ### Multiplication -/

/-- `a * b + c + d`, with the parts `v & mask` and `v >> width` of the result: mul_prec_int.hpp:326-328 and 684-686. -/
def mulStep (I w : Nat) (a b c d : Nat) : Option (Nat × Nat) := do
  let v ← arith I (T w) (a * b)
  let v ← arith I (P I w) (v + c)
  let v ← arith I (P I w) (v + d)
  some (toT w (bitAnd (P I w) v (← mask I w)), toT w (← shr (P I w) v (subw w)))

/-- The inner loop of `operator*`: mul_prec_int.hpp:324-329. -/
def mulInner (I w N : Nat) (a b : List Nat) (i : Nat) (res : List Nat) : Option (List Nat) := do
  let (res, _) ← loop (fun j (res, carry) => do
    let (v, carry) ← mulStep I w (← rd a i) (← rd b j) (← rd res (i + j)) carry
    some (← wr res (i + j) v, carry)) (nsub w N - i) 0 (res, 0)
  some res

/-- `operator*`: mul_prec_int.hpp:318-332. -/
def mul (I w N : Nat) (a b : List Nat) : Option (List Nat) := do
  let a ← scatter I w N a
  let b ← scatter I w N b
  let res ← loop (mulInner I w N a b) (nsub w N) 0 (zero (nsub w N))
  gather I w N res

/-! ### Division -/

/-- `unsigned_short_div()`: mul_prec_int.hpp:613-623. The result is the contents of `a` and the remainder. -/
def shortDiv (I w N : Nat) (a : List Nat) (b : Nat) : Option (List Nat × Nat) :=
  loop (fun i (a, rem) => do
    let j := nsub w N - 1 - i
    let dividend := toT w (bitOr (P I w) (← shl (P I w) rem (subw w)) (← rd a j))
    let a ← wr a j (toT w (← divOp I (T w) dividend b))
    let rem := toT w (← modOp I (T w) dividend b)
    some (a, rem)) (nsub w N) 0 (a, 0)

/-- The shift amount of the normalization: mul_prec_int.hpp:639. -/
def normShift (w : Nat) (top : Nat) : Option Nat :=
  let shift : Int := (subw w : Int) - 1 - findMsbPos (T w) top
  if shift < 0 then none else some shift.toNat

/-- `x | (y >> (width - shift))`: mul_prec_int.hpp:643 and 650. -/
def normHi (I w shift : Nat) (x y : Nat) : Option Nat := do
  some (toT w (bitOr (P I w) x (← shr (P I w) y (subw w - shift))))

/-- `(y << shift) & mask`: mul_prec_int.hpp:644 and 651. -/
def normLo (I w shift : Nat) (y : Nat) : Option Nat := do
  some (toT w (bitAnd (P I w) (← shl (P I w) y shift) (← mask I w)))

/-- Normalization of the dividend: mul_prec_int.hpp:640-645. -/
def normDividend (I w N shift : Nat) (a : List Nat) : Option (List Nat) :=
  loop (fun i u => do
    let j := nsub w N - i
    let u ← wr u j (← normHi I w shift (← rd u j) (← rd a (j - 1)))
    wr u (j - 1) (← normLo I w shift (← rd a (j - 1)))) (nsub w N) 0 (zero (nsub w N + 1))

/-- Normalization of the divisor: mul_prec_int.hpp:646-652. -/
def normDivisor (I w N shift n : Nat) (b : List Nat) : Option (List Nat) := do
  let v ← wr (zero (nsub w N)) (n - 1) (toT w (← shl (P I w) (← rd b (n - 1)) shift))
  loop (fun i v => do
    let j := n - 1 - i
    let v ← wr v j (← normHi I w shift (← rd v j) (← rd b (j - 1)))
    wr v (j - 1) (← normLo I w shift (← rd b (j - 1)))) (n - 1) 0 v

/-- The test of an estimate: mul_prec_int.hpp:666 and 672. -/
def testEstimate (I w base : Nat) (qHat rHat v2 u2 : Nat) : Option Bool :=
  if qHat < base then do
    let x ← arith I (T w) (qHat * v2)
    let y ← arith I (T w) (base * rHat)
    let y ← arith I (P I w) (y + u2)
    some (decide (x ≤ y))
  else some false

/-- Estimation of a digit of the quotient: mul_prec_int.hpp:659-676. The arguments are `u[j + n]`, `u[j + n - 1]`,
`u[j + n - 2]`, `v[n - 1]` and `v[n - 2]`. -/
def estimate (I w : Nat) (u0 u1 u2 v1 v2 : Nat) : Option Nat := do
  let e := toT w (bitOr (P I w) (← shl (P I w) u0 (subw w)) u1)
  let f := v1
  let qHat := toT w (← divOp I (T w) e f)
  let rHat := toT w (← modOp I (T w) e f)
  let base := toT w (← arith I (T w) ((← mask I w) + 1))
  if ← testEstimate I w base qHat rHat v2 u2 then some qHat
  else
    let qHat := toT w (← arith I (T w) (qHat - 1))
    let rHat := toT w (← arith I (T w) (rHat + f))
    if rHat ≥ base then some qHat
    else if ← testEstimate I w base qHat rHat v2 u2 then some qHat
    else some (toT w (← arith I (T w) (qHat - 1)))

/-- Multiplication of the divisor by a digit: mul_prec_int.hpp:681-688. -/
def mulDigit (I w N n : Nat) (v : List Nat) (qHat : Nat) : Option (List Nat) := do
  let (ws, carry) ← loop (fun i (ws, carry) => do
    let (x, carry) ← mulStep I w qHat (← rd v i) (← rd ws i) carry
    some (← wr ws i x, carry)) n 0 (zero (nsub w N + 1), 0)
  wr ws n carry

/-- `x - y - carry`, with the digit and the borrow: mul_prec_int.hpp:691-693. -/
def subStep (I w : Nat) (x y carry : Nat) : Option (Nat × Nat) := do
  let a ← arith I (T w) (x - y)
  let a ← arith I (P I w) (a - carry)
  some (toT w (bitAnd (P I w) a (← mask I w)), toT w (bitAnd (P I w) (← shr (P I w) a (subw w)) 1))

/-- Subtraction: mul_prec_int.hpp:689-695. The result is the contents of `u` and the final borrow. -/
def subDigits (I w n j : Nat) (u ws : List Nat) : Option (List Nat × Nat) :=
  loop (fun i (u, carry) => do
    let (x, carry) ← subStep I w (← rd u (j + i)) (← rd ws i) carry
    some (← wr u (j + i) x, carry)) (n + 1) 0 (u, 0)

/-- `x + y + carry`, with the digit and the carry: mul_prec_int.hpp:705-707. -/
def addStep (I w : Nat) (x y carry : Nat) : Option (Nat × Nat) := do
  let a ← arith I (T w) (x + y)
  let a ← arith I (P I w) (a + carry)
  some (toT w (bitAnd (P I w) a (← mask I w)), toT w (← shr (P I w) a (subw w)))

/-- Adding back: mul_prec_int.hpp:703-709. -/
def addBack (I w n j : Nat) (u v : List Nat) : Option (List Nat) := do
  let (u, carry) ← loop (fun i (u, carry) => do
    let (x, carry) ← addStep I w (← rd u (j + i)) (← rd v i) carry
    some (← wr u (j + i) x, carry)) n 0 (u, 0)
  wr u (j + n) (toT w (← arith I (T w) ((← rd u (j + n)) + carry)))

/-- One turn of the main loop: mul_prec_int.hpp:659-713. -/
def divStep (I w N n : Nat) (v : List Nat) (j : Nat) (u q : List Nat) : Option (List Nat × List Nat) := do
  let qHat ← estimate I w (← rd u (j + n)) (← rd u (j + n - 1)) (← rd u (j + n - 2)) (← rd v (n - 1)) (← rd v (n - 2))
  let ws ← mulDigit I w N n v qHat
  let (u, carry) ← subDigits I w n j u ws
  if carry = 0 then some (u, ← wr q j qHat)
  else
    let qHat := toT w (← arith I (T w) (qHat - 1))
    let u ← addBack I w n j u v
    some (u, ← wr q j qHat)

/-- The main loop: mul_prec_int.hpp:654-720. The first argument is `j + 1`. -/
def divLoop (I w N n : Nat) (v : List Nat) : Nat → List Nat → List Nat → Option (List Nat × List Nat)
  | 0, u, q => some (u, q)
  | j + 1, u, q => do
    let (u, q) ← divStep I w N n v j u q
    divLoop I w N n v j u q

/-- A digit of the remainder: mul_prec_int.hpp:726. -/
def unnorm (I w shift : Nat) (x y : Nat) : Option Nat := do
  let hi := bitAnd (P I w) (← shl (P I w) y (subw w - shift)) (← mask I w)
  some (toT w (bitOr (P I w) (← shr (P I w) x shift) hi))

/-- `unsigned_long_div()`: mul_prec_int.hpp:627-729. The result is the contents of `a` and the remainder. -/
def longDiv (I w N : Nat) (a b : List Nat) (n : Nat) : Option (List Nat × List Nat) := do
  if n > 1 ∧ n ≤ nsub w N then
    let shift ← normShift w (← rd b (n - 1))
    let u ← normDividend I w N shift a
    let v ← normDivisor I w N shift n b
    let (u, q) ← divLoop I w N n v (nsub w N - n + 1) u (zero (nsub w N))
    let r ← loop (fun i r => do wr r i (← unnorm I w shift (← rd u i) (← rd u (i + 1)))) (n - 1) 0 (zero (nsub w N))
    let r ← wr r (n - 1) (toT w (← shr (P I w) (← rd u (n - 1)) shift))
    some (q, r)
  else none

/-- The loop that finds the number of digits of the divisor: mul_prec_int.hpp:599-601. -/
def numDigits (b : List Nat) : Nat → Option Nat
  | 0 => some 0
  | n + 1 => do
    if (← rd b n) = 0 then numDigits b n
    else some (n + 1)

/-- `unsigned_div()`: mul_prec_int.hpp:594-609. -/
def unsignedDiv (I w N : Nat) (a b : List Nat) : Option (List Nat × List Nat) := do
  let subparts ← scatter I w N a
  let other ← scatter I w N b
  let n ← numDigits other (nsub w N)
  if n > 1 then
    let (quot, rem) ← longDiv I w N subparts other n
    some (← gather I w N quot, ← gather I w N rem)
  else
    let (quot, r) ← shortDiv I w N subparts (← rd other 0)
    let rem ← wr (zero (nsub w N)) 0 r
    some (← gather I w N quot, ← gather I w N rem)

/-- `divmod()`: mul_prec_int.hpp:539-554. -/
def divmod (I w N : Nat) (S : Bool) (a b : List Nat) : Option (List Nat × List Nat) := do
  if ← isNonneg I w N S a then
    if ← isNonneg I w N S b then unsignedDiv I w N a b
    else
      let (quot, rem) ← unsignedDiv I w N a (← neg I w N b)
      some (← neg I w N quot, rem)
  else
    let a ← neg I w N a
    if ← isNonneg I w N S b then
      let (quot, rem) ← unsignedDiv I w N a b
      some (← neg I w N quot, ← neg I w N rem)
    else
      let (quot, rem) ← unsignedDiv I w N a (← neg I w N b)
      some (quot, ← neg I w N rem)

end Verif.MulPrec
