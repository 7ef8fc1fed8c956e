import Verif.AsList.Model
import Verif.IntText.Model
/-!
Model of /repo/src/archon/util/pixel_size.hpp and /repo/src/archon/util/pixel_pos.hpp, `pixel::Size` and `pixel::Pos`, and of the part of
/repo/src/archon/core/as_int.hpp that is used by them.

`I` is the number of value bits of `int`. Arithmetic of type `int` gives `none` if the result is not representable, as the behavior is then
undefined. Characters are those of type `char`, and they are taken to be ASCII characters.
-/
namespace Verif.PixelSize
open Verif.Integer

/-- `pixel::Size`: pixel_size.hpp:61-67. -/
structure Size where
  width : Int
  height : Int
deriving DecidableEq, Repr

/-- `pixel::Pos`: pixel_pos.hpp:64-70. -/
structure Pos where
  x : Int
  y : Int
deriving DecidableEq, Repr

/-- `Size::is_valid()`: pixel_size.hpp:264-267. -/
def Size.isValid (s : Size) : Bool := decide (s.width ≥ 0 ∧ s.height ≥ 0)

/-- `Size::is_zero()`: pixel_size.hpp:270-273. -/
def Size.isZero (s : Size) : Bool := decide (s.width = 0 ∧ s.height = 0)

/-- `Size::is_empty()`: pixel_size.hpp:276-279. -/
def Size.isEmpty (s : Size) : Bool := decide (s.width = 0 ∨ s.height = 0)

/-- `Size::contains()`: pixel_size.hpp:282-285. -/
def Size.contains (s other : Size) : Bool := decide (s.width ≥ other.width ∧ s.height ≥ other.height)

/-- `Size::contained_in()`: pixel_size.hpp:288-291. -/
def Size.containedIn (s other : Size) : Bool := decide (s.width ≤ other.width ∧ s.height ≤ other.height)

/-- `Size::operator==()`: pixel_size.hpp:294-297. -/
def Size.eq (s other : Size) : Bool := decide (s.width = other.width ∧ s.height = other.height)

/-- `Size::operator!=()`: pixel_size.hpp:300-303. -/
def Size.ne (s other : Size) : Bool := !s.eq other

/-- `Size::operator<()`: pixel_size.hpp:306-309. -/
def Size.lt (s other : Size) : Bool := decide (s.width < other.width ∨ (s.width = other.width ∧ s.height < other.height))

/-- `Size::operator>()`: pixel_size.hpp:318-321. -/
def Size.gt (s other : Size) : Bool := other.lt s

/-- `Size::operator<=()`: pixel_size.hpp:312-315. -/
def Size.le (s other : Size) : Bool := !s.gt other

/-- `Size::operator>=()`: pixel_size.hpp:324-327. -/
def Size.ge (s other : Size) : Bool := !s.lt other

/-- `Pos::operator==()`: pixel_pos.hpp:240-243. -/
def Pos.eq (p other : Pos) : Bool := decide (p.x = other.x ∧ p.y = other.y)

/-- `Pos::operator!=()`: pixel_pos.hpp:246-249. -/
def Pos.ne (p other : Pos) : Bool := !p.eq other

/-- `Pos::operator<()`: pixel_pos.hpp:252-255. -/
def Pos.lt (p other : Pos) : Bool := decide (p.x < other.x ∨ (p.x = other.x ∧ p.y < other.y))

/-- `Pos::operator>()`: pixel_pos.hpp:264-267. -/
def Pos.gt (p other : Pos) : Bool := other.lt p

/-- `Pos::operator<=()`: pixel_pos.hpp:258-261. -/
def Pos.le (p other : Pos) : Bool := !p.gt other

/-- `Pos::operator>=()`: pixel_pos.hpp:270-273. -/
def Pos.ge (p other : Pos) : Bool := !p.lt other

/-- A size from the results of two operations of type `int`. -/
def Size.of (w h : Option Int) : Option Size := do some ⟨← w, ← h⟩

/-- A position from the results of two operations of type `int`. -/
def Pos.of (x y : Option Int) : Option Pos := do some ⟨← x, ← y⟩

/-- `Size::operator+()`: pixel_size.hpp:330-336. -/
def Size.add (I : Nat) (s other : Size) : Option Size :=
  Size.of (arith I (intTy I) (s.width + other.width)) (arith I (intTy I) (s.height + other.height))

/-- `Size::operator-()`: pixel_size.hpp:339-345. -/
def Size.sub (I : Nat) (s other : Size) : Option Size :=
  Size.of (arith I (intTy I) (s.width - other.width)) (arith I (intTy I) (s.height - other.height))

/-- `operator*()`: pixel_size.hpp:384-399. -/
def Size.scale (I : Nat) (f : Int) (s : Size) : Option Size := Size.of (arith I (intTy I) (f * s.width)) (arith I (intTy I) (f * s.height))

/-- `operator/()`: pixel_size.hpp:402-408. -/
def Size.div (I : Nat) (s : Size) (f : Int) : Option Size := Size.of (divOp I (intTy I) s.width f) (divOp I (intTy I) s.height f)

/-- `Pos::can_add()`: pixel_pos.hpp:228-231, with `core::can_int_add()` (integer.hpp:1697-1700). -/
def Pos.canAdd (I : Nat) (p : Pos) (s : Size) : Option Bool := do
  if (← tryAdd I (intTy I) (intTy I) p.x s.width).isSome then some (← tryAdd I (intTy I) (intTy I) p.y s.height).isSome else some false

/-- `Pos::can_sub()`: pixel_pos.hpp:234-237, with `core::can_int_sub()` (integer.hpp:1703-1706). -/
def Pos.canSub (I : Nat) (p : Pos) (s : Size) : Option Bool := do
  if (← trySub I (intTy I) (intTy I) p.x s.width).isSome then some (← trySub I (intTy I) (intTy I) p.y s.height).isSome else some false

/-- `Pos::operator-(Pos)`: pixel_pos.hpp:276-279. -/
def Pos.diff (I : Nat) (p other : Pos) : Option Size := Size.of (arith I (intTy I) (p.x - other.x)) (arith I (intTy I) (p.y - other.y))

/-- `Pos::operator+(pixel::Size)`: pixel_pos.hpp:282-285. -/
def Pos.add (I : Nat) (p : Pos) (s : Size) : Option Pos := Pos.of (arith I (intTy I) (p.x + s.width)) (arith I (intTy I) (p.y + s.height))

/-- `Pos::operator-(pixel::Size)`: pixel_pos.hpp:288-291. -/
def Pos.sub (I : Nat) (p : Pos) (s : Size) : Option Pos := Pos.of (arith I (intTy I) (p.x - s.width)) (arith I (intTy I) (p.y - s.height))

/-! ### Text -/

/-- The code of an ASCII character, or zero for other characters. -/
def narrow (c : Char) : Nat := if c.toNat < 128 then c.toNat else 0

/-- Formatting of an element by way of `core::as_int()`: as_int.hpp:149-161. `M` is the maximum size of the buffer of the formatter, and `mem` is
the initial contents of it. The result is empty text if formatting fails, which is shown not to be the case. -/
def formatInt (I M : Nat) (mem : List Char) (v : Int) : List Char :=
  match IntText.format I (intTy I) M ' ' Char.ofNat false 10 1 v mem with
  | .ok (_, text) => text
  | .error _ => []

/-- Parsing of an element by way of `core::as_int()`: as_int.hpp:207-218. The variable is untouched if parsing fails. -/
def parseInt (I : Nat) : AsList.Parser Int where
  parse text :=
    match IntText.parse I (intTy I) narrow 10 .auto_ text 0 with
    | some (true, v) => some v
    | _ => none
  clobber _ v := v

/-- The configuration for formatting and parsing: pixel_size.hpp:438-439, 453-454, pixel_pos.hpp:336-337, 348-349. -/
def config : AsList.Config := { space := .allow }

/-- `operator<<()` for `pixel::Size`: pixel_size.hpp:429-442. -/
def formatSize (I M : Nat) (mem : List Char) (s : Size) : List Char :=
  AsList.formatListA config (formatInt I M mem) 0 1 true [s.width, s.height]

/-- `parse_value()` for `pixel::Size`: pixel_size.hpp:445-462. The result is the returned value, and the size afterwards. -/
def parseSize (I : Nat) (text : List Char) (s : Size) : Bool × Size :=
  match AsList.parseListA config (parseInt I) 0 true text [0, 0] with
  | (true, [w, h]) => (true, ⟨w, h⟩)
  | _ => (false, s)

/-- `operator<<()` for `pixel::Pos`: pixel_pos.hpp:330-339. -/
def formatPos (I M : Nat) (mem : List Char) (p : Pos) : List Char :=
  AsList.formatAsList config ([p.x, p.y].map (formatInt I M mem))

/-- `parse_value()` for `pixel::Pos`: pixel_pos.hpp:342-356. The result is the returned value, and the position afterwards. -/
def parsePos (I : Nat) (text : List Char) (p : Pos) : Bool × Pos :=
  match AsList.parseList config (parseInt I) text [0, 0] with
  | (true, [x, y]) => (true, ⟨x, y⟩)
  | _ => (false, p)

end Verif.PixelSize
