import Verif.PixelBox.Model
/-!
Model of pixel iterators and trays: /repo/src/archon/image/iter.hpp and /repo/src/archon/image/tray.hpp.

Memory is made up of cells, each of which holds one component. An address is an integer. A cell is outside all arrays (`none`),
without a value (`some none`), or with a value. `none` as a result of an operation is undefined behavior: access outside arrays,
use of a cell without a value, overlapping arguments of `std::copy()`, overflow of type `int`, or a failed assertion.

`I` is the number of value bits of `int`. Pointer arithmetic, and its operands of type `std::ptrdiff_t`, are exact. The rule that an
iterator must not be moved outside the pixel grid is not modelled; what is modelled is that memory accesses must be to existing cells.
-/
namespace Verif.ImageIter
open Verif.Integer Verif.PixelBox

/-- Addition of type `int`. -/
def add (I : Nat) (a b : Int) : Option Int := arith I (intTy I) (a + b)

/-- The contents of memory. -/
abbrev Mem (α : Type) := Int → Option (Option α)

variable {α : Type}

/-- Read a component. -/
def load (m : Mem α) (a : Int) : Option α := (m a).join

/-- Assign to a component. -/
def store (m : Mem α) (a : Int) (v : α) : Option (Mem α) :=
  if (m a).isSome then some (fun b => if b = a then some (some v) else m b) else none

/-- `Iter`: iter.hpp:62-85. -/
structure Iter where
  base : Int
  horzStride : Int
  vertStride : Int
deriving DecidableEq, Repr

/-- `Iter::operator()()`: iter.hpp:284-298. -/
def Iter.ptr (it : Iter) (x y : Int) : Int := it.base + x * it.horzStride + y * it.vertStride

/-- `Iter::operator+()` and `Iter::operator+=()`: iter.hpp:301-306, 317-323. -/
def Iter.plus (it : Iter) (w h : Int) : Iter := { it with base := it.base + w * it.horzStride + h * it.vertStride }

/-- `Iter::operator-()` and `Iter::operator-=()`: iter.hpp:309-314, 326-332. -/
def Iter.minus (it : Iter) (w h : Int) : Iter := { it with base := it.base - w * it.horzStride - h * it.vertStride }

/-- The loop of `std::copy()`. `i` is the number of components that are already copied. -/
def copyLoop (origin destin : Int) : (n i : Nat) → Mem α → Option (Mem α)
  | 0, _, m => some m
  | n + 1, i, m => do
    let v ← load m (origin + i)
    let m ← store m (destin + i) v
    copyLoop origin destin n (i + 1) m

/-- `std::copy()` between arrays of components. The destination must not begin in the range that is copied. -/
def copy (origin destin : Int) (n : Nat) (m : Mem α) : Option (Mem α) :=
  if origin ≤ destin ∧ destin < origin + n then none else copyLoop origin destin n 0 m

/-- A loop `for (int x = 0; x < w; ++x)`. The number of remaining rounds is `k`. -/
def loopX (step : Nat → Mem α → Option (Mem α)) : (k x : Nat) → Mem α → Option (Mem α)
  | 0, _, m => some m
  | k + 1, x, m => do
    let m ← step x m
    loopX step k (x + 1) m

/-- A loop `for (int y = 0; y < h; ++y)` whose body is a loop `for (int x = 0; x < w; ++x)`. -/
def loopY (step : Nat → Nat → Mem α → Option (Mem α)) (w : Nat) : (k y : Nat) → Mem α → Option (Mem α)
  | 0, _, m => some m
  | k + 1, y, m => do
    let m ← loopX (fun x => step x y) w 0 m
    loopY step w k (y + 1) m

/-- `Iter::copy_to()`: iter.hpp:335-345. The size is `(w, h)`. -/
def Iter.copyTo (it other : Iter) (w h : Int) (n : Nat) (m : Mem α) : Option (Mem α) :=
  loopY (fun x y => copy (it.ptr x y) (other.ptr x y) n) w.toNat h.toNat 0 m

/-- `std::copy()` from an array that is separate from the modelled memory. -/
def put (pixel : List α) (destin : Int) : (n i : Nat) → Mem α → Option (Mem α)
  | 0, _, m => some m
  | n + 1, i, m => do
    let v ← pixel[i]?
    let m ← store m (destin + i) v
    put pixel destin n (i + 1) m

/-- The body of the loops of `Iter::fill()`: iter.hpp:353. The area is at `(px, py)`. -/
def fillStep (I : Nat) (it : Iter) (pixel : List α) (px py : Int) (n x y : Nat) (m : Mem α) : Option (Mem α) := do
  let x2 ← add I px x
  let y2 ← add I py y
  put pixel (it.ptr x2 y2) n 0 m

/-- `Iter::fill()`: iter.hpp:348-355. The specified pixel is outside the modelled memory. -/
def Iter.fill (I : Nat) (it : Iter) (pixel : List α) (area : Box) (n : Nat) (m : Mem α) : Option (Mem α) :=
  loopY (fun x y => fillStep I it pixel area.x area.y n x y) area.w.toNat area.h.toNat 0 m

/-! ### Repetition of a pattern

The loops are given a bound on the number of rounds, and the result is `none` if the bound is reached; that does not happen, as
is shown. -/

/-- The loop of `repeat_left()`: iter.hpp:379-382. The result includes the final value of `offset`. -/
def repeatLeftLoop (I : Nat) (it : Iter) (pw ph size : Int) (n : Nat) : (fuel : Nat) → Int → Mem α → Option (Int × Mem α)
  | 0, _, _ => none
  | fuel + 1, offset, m => do
    let d ← sub I size offset
    if d ≥ pw then do
      let offset ← add I offset pw
      let m ← it.copyTo (it.minus offset 0) pw ph n m
      repeatLeftLoop I it pw ph size n fuel offset m
    else some (offset, m)

/-- `repeat_left()`: iter.hpp:372-386. -/
def Iter.repeatLeft (I : Nat) (this : Iter) (pattern : Box) (size : Int) (n : Nat) (m : Mem α) : Option (Mem α) :=
  if pattern.w > 0 ∧ size ≥ 0 then do
    let px ← sub I pattern.x 0
    let py ← sub I pattern.y 0
    let it := this.plus px py
    let (offset, m) ← repeatLeftLoop I it pattern.w pattern.h size n (size.toNat + 1) 0 m
    let rest ← sub I size offset
    let d ← sub I pattern.w rest
    let it2 := it.plus d 0
    it2.copyTo (it.minus size 0) rest pattern.h n m
  else none

/-- The loop of `repeat_right()`: iter.hpp:396-399. -/
def repeatRightLoop (I : Nat) (it : Iter) (pw ph size : Int) (n : Nat) : (fuel : Nat) → Int → Mem α → Option (Int × Mem α)
  | 0, _, _ => none
  | fuel + 1, offset, m => do
    let d ← sub I size offset
    if d ≥ pw then do
      let offset ← add I offset pw
      let m ← it.copyTo (it.plus offset 0) pw ph n m
      repeatRightLoop I it pw ph size n fuel offset m
    else some (offset, m)

/-- `repeat_right()`: iter.hpp:389-403. -/
def Iter.repeatRight (I : Nat) (this : Iter) (pattern : Box) (size : Int) (n : Nat) (m : Mem α) : Option (Mem α) :=
  if pattern.w > 0 ∧ size ≥ 0 then do
    let px ← sub I pattern.x 0
    let py ← sub I pattern.y 0
    let it := this.plus px py
    let (offset, m) ← repeatRightLoop I it pattern.w pattern.h size n (size.toNat + 1) 0 m
    let rest ← sub I size offset
    let offset ← add I offset pattern.w
    it.copyTo (it.plus offset 0) rest pattern.h n m
  else none

/-- The loop of `repeat_up()`: iter.hpp:413-416. -/
def repeatUpLoop (I : Nat) (it : Iter) (pw ph size : Int) (n : Nat) : (fuel : Nat) → Int → Mem α → Option (Int × Mem α)
  | 0, _, _ => none
  | fuel + 1, offset, m => do
    let d ← sub I size offset
    if d ≥ ph then do
      let offset ← add I offset ph
      let m ← it.copyTo (it.minus 0 offset) pw ph n m
      repeatUpLoop I it pw ph size n fuel offset m
    else some (offset, m)

/-- `repeat_up()`: iter.hpp:406-420. -/
def Iter.repeatUp (I : Nat) (this : Iter) (pattern : Box) (size : Int) (n : Nat) (m : Mem α) : Option (Mem α) :=
  if pattern.h > 0 ∧ size ≥ 0 then do
    let px ← sub I pattern.x 0
    let py ← sub I pattern.y 0
    let it := this.plus px py
    let (offset, m) ← repeatUpLoop I it pattern.w pattern.h size n (size.toNat + 1) 0 m
    let rest ← sub I size offset
    let d ← sub I pattern.h rest
    let it2 := it.plus 0 d
    it2.copyTo (it.minus 0 size) pattern.w rest n m
  else none

/-- The loop of `repeat_down()`: iter.hpp:430-433. -/
def repeatDownLoop (I : Nat) (it : Iter) (pw ph size : Int) (n : Nat) : (fuel : Nat) → Int → Mem α → Option (Int × Mem α)
  | 0, _, _ => none
  | fuel + 1, offset, m => do
    let d ← sub I size offset
    if d ≥ ph then do
      let offset ← add I offset ph
      let m ← it.copyTo (it.plus 0 offset) pw ph n m
      repeatDownLoop I it pw ph size n fuel offset m
    else some (offset, m)

/-- `repeat_down()`: iter.hpp:423-437. -/
def Iter.repeatDown (I : Nat) (this : Iter) (pattern : Box) (size : Int) (n : Nat) (m : Mem α) : Option (Mem α) :=
  if pattern.h > 0 ∧ size ≥ 0 then do
    let px ← sub I pattern.x 0
    let py ← sub I pattern.y 0
    let it := this.plus px py
    let (offset, m) ← repeatDownLoop I it pattern.w pattern.h size n (size.toNat + 1) 0 m
    let rest ← sub I size offset
    let offset ← add I offset pattern.h
    it.copyTo (it.plus 0 offset) pattern.w rest n m
  else none

/-- `splice()`: pixel_box.hpp:324-327, with pixel_pos.hpp:359-362 and pixel_size.hpp:465-468. -/
def splice (x y : Box) : Box := ⟨x.x, y.y, x.w, y.h⟩

/-- `Iter::repeat()`: iter.hpp:358-369. -/
def Iter.repeat (I : Nat) (this : Iter) (pattern area : Box) (n : Nat) (m : Mem α) : Option (Mem α) := do
  if ← area.contains I pattern then do
    let leadW ← sub I pattern.x area.x
    let leadH ← sub I pattern.y area.y
    let w ← add I leadW pattern.w
    let h ← add I leadH pattern.h
    let trailW ← sub I area.w w
    let trailH ← sub I area.h h
    let m ← this.repeatLeft I pattern leadW n m
    let m ← this.repeatRight I pattern trailW n m
    let pattern2 := splice area pattern
    let m ← this.repeatUp I pattern2 leadH n m
    this.repeatDown I pattern2 trailH n m
  else none

/-! ### Trays -/

/-- `Tray`: tray.hpp:49-68. -/
structure Tray where
  iter : Iter
  w : Int
  h : Int
deriving DecidableEq, Repr

/-- `Tray::is_empty()`: tray.hpp:169-173, pixel_size.hpp:274-277. -/
def Tray.isEmpty (t : Tray) : Bool := decide (t.w = 0 ∨ t.h = 0)

/-- `Tray::subtray()`: tray.hpp:204-208. -/
def Tray.subtray (I : Nat) (t : Tray) (box : Box) (originX originY : Int) : Option Tray := do
  let x ← sub I box.x originX
  let y ← sub I box.y originY
  some ⟨t.iter.plus x y, box.w, box.h⟩

/-- `Tray::copy_from()`: tray.hpp:218-222. -/
def Tray.copyFrom (t : Tray) (other : Iter) (n : Nat) (m : Mem α) : Option (Mem α) := other.copyTo t.iter t.w t.h n m

/-- `Tray::copy_to()`: tray.hpp:211-215. -/
def Tray.copyTo (t : Tray) (other : Iter) (n : Nat) (m : Mem α) : Option (Mem α) := t.iter.copyTo other t.w t.h n m

/-- `Tray::fill()`: tray.hpp:225-229. The size is converted to a box at the origin (pixel_box.hpp:185-188). -/
def Tray.fill (I : Nat) (t : Tray) (pixel : List α) (n : Nat) (m : Mem α) : Option (Mem α) := t.iter.fill I pixel ⟨0, 0, t.w, t.h⟩ n m

/-- `Tray::repeat()`: tray.hpp:232-236. -/
def Tray.repeat (I : Nat) (t : Tray) (pattern : Box) (n : Nat) (m : Mem α) : Option (Mem α) :=
  t.iter.repeat I pattern ⟨0, 0, t.w, t.h⟩ n m

end Verif.ImageIter
