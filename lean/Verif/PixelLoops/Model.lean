import Mathlib.Data.Nat.Basic
/-!
Model of the loops of `read()`, `write()` and `fill()` that are the same in `SubwordPixelFormat`
(/repo/src/archon/image/subword_pixel_format.hpp) and `IndexedPixelFormat` (/repo/src/archon/image/indexed_pixel_format.hpp).
In the former, several pixels are stored in a word. In the latter, several pixels are stored in a compound that consists of
several words. Below, "unit" means word or compound.

Line numbers of `SubwordPixelFormat` are marked S, and those of `IndexedPixelFormat` are marked X. A buffer is the list of the
values of its words. `none` is undefined behavior (such as access outside the buffer) or a failed assertion. A pixel has type
`Px`. Sizes are nonnegative. Index arithmetic is exact: it is assumed that the number of pixels of the image can be represented
in type `std::ptrdiff_t`; the other numbers are bounded by the width or the height of the image.
-/
namespace Verif.PixelLoops

/-- What the loops need to know about units: the number of pixels in a unit, and the functions that read and write a unit, given
the index of the unit. -/
structure Units where
  perUnit : Nat
  read : List Int → Nat → Option Int
  write : Int → List Int → Nat → Option (List Int)

/-- `get_pixel_pos()`: S 454-471, X 539-556. The index of the unit, and the position of the pixel in it. -/
def pixelPos (D : Nat) (aligned : Bool) (imageWidth x y : Nat) : Nat × Nat :=
  if aligned then
    let unitsPerRow := (imageWidth + (D - 1)) / D
    (y * unitsPerRow + x / D, x % D)
  else
    let pixelIndex := y * imageWidth + x
    (pixelIndex / D, pixelIndex % D)

/-- `ARCHON_ASSERT(box.contained_in(image_size))`: S 303, 352, 404, X 387, 436, 489. See Verif/PixelBox for
`Box::contained_in()`. -/
def contained (imageWidth imageHeight : Nat) (x y : Int) (w h : Nat) : Bool :=
  decide (0 ≤ x ∧ 0 ≤ y ∧ x + w ≤ imageWidth ∧ y + h ≤ imageHeight)

variable {Px : Type}

/-! ### Reading -/

/-- The loop over `n` pixels of a unit, starting at position `p`: S 315-319, 324-328, 338-342, X 399-403, 408-412, 422-426. The
result is the list of pixels that are stored in the row of the tray, in order of increasing `x`. -/
def readSlots (get : Int → Nat → Option Px) (u : Int) : (n p : Nat) → Option (List Px)
  | 0, _ => some []
  | n + 1, p => do
    let a ← get u p
    let r ← readSlots get u n (p + 1)
    some (a :: r)

/-- The loop over `n` whole units, starting with unit `k`: S 322-330, X 406-414. -/
def readUnits (U : Units) (get : Int → Nat → Option Px) (buf : List Int) : (n k : Nat) → Option (List Px)
  | 0, _ => some []
  | n + 1, k => do
    let u ← U.read buf k
    let a ← readSlots get u U.perUnit 0
    let r ← readUnits U get buf n (k + 1)
    some (a ++ r)

/-- The last part of the row: S 336-343, X 420-427. -/
def readLast (U : Units) (get : Int → Nat → Option Px) (buf : List Int) (k beginPos endPos : Nat) : Option (List Px) :=
  if endPos > beginPos then do
    let u ← U.read buf k
    readSlots get u (endPos - beginPos) beginPos
  else some []

/-- The body of the loop over rows of `read()`: S 305-343, X 389-427. -/
def readRow (U : Units) (get : Int → Nat → Option Px) (buf : List Int) (b e : Nat × Nat) : Option (List Px) :=
  if e.1 > b.1 then do
    let u ← U.read buf b.1
    let a ← readSlots get u (U.perUnit - b.2) b.2
    let between := e.1 - b.1 - 1
    let c ← readUnits U get buf between (b.1 + 1)
    let d ← readLast U get buf (b.1 + 1 + between) 0 e.2
    some (a ++ c ++ d)
  else if e.1 = b.1 then readLast U get buf b.1 b.2 e.2
  else none

/-- The loop over rows of `read()`: S 304-344, X 388-428. The first argument is the number of remaining rows. The result is the
list of rows of the tray. -/
def readRows (U : Units) (get : Int → Nat → Option Px) (aligned : Bool) (imageWidth : Nat) (buf : List Int) (px py w : Nat) :
    (n y : Nat) → Option (List (List Px))
  | 0, _ => some []
  | n + 1, y => do
    let b := pixelPos U.perUnit aligned imageWidth px (py + y)
    let e := pixelPos U.perUnit aligned imageWidth (px + w) (py + y)
    let a ← readRow U get buf b e
    let r ← readRows U get aligned imageWidth buf px py w n (y + 1)
    some (a :: r)

/-- `read()`: S 299-345, X 382-429. `x` and `y` is the position, and `w` and `h` is the size of the tray. -/
def read (U : Units) (get : Int → Nat → Option Px) (aligned : Bool) (buf : List Int) (imageWidth imageHeight : Nat) (x y : Int)
    (w h : Nat) : Option (List (List Px)) :=
  if contained imageWidth imageHeight x y w h then readRows U get aligned imageWidth buf x.toNat y.toNat w h 0 else none

/-! ### Writing -/

/-- The loop over `n` pixels of a unit, starting at position `p` of the unit, and at `x` in the row of the tray: S 364-368,
374-378, 389-393, X 448-452, 458-462, 473-477. `src` is the row of the tray; `none` outside the tray. -/
def writeSlots (set : Px → Int → Nat → Option Int) (src : Nat → Option Px) : (n p x : Nat) → Int → Option Int
  | 0, _, _, u => some u
  | n + 1, p, x, u => do
    let a ← src x
    let u ← set a u p
    writeSlots set src n (p + 1) (x + 1) u

/-- The loop over `n` whole units, starting with unit `k`: S 372-381, X 456-465. -/
def writeUnits (U : Units) (set : Px → Int → Nat → Option Int) (src : Nat → Option Px) :
    (n k x : Nat) → List Int → Option (List Int)
  | 0, _, _, buf => some buf
  | n + 1, k, x, buf => do
    let u ← writeSlots set src U.perUnit 0 x 0
    let buf ← U.write u buf k
    writeUnits U set src n (k + 1) (x + U.perUnit) buf

/-- The last part of the row: S 387-395, X 471-479. -/
def writeLast (U : Units) (set : Px → Int → Nat → Option Int) (src : Nat → Option Px) (buf : List Int)
    (k beginPos endPos x : Nat) : Option (List Int) :=
  if endPos > beginPos then do
    let u ← U.read buf k
    let u ← writeSlots set src (endPos - beginPos) beginPos x u
    U.write u buf k
  else some buf

/-- The body of the loop over rows of `write()`: S 354-395, X 438-479. -/
def writeRow (U : Units) (set : Px → Int → Nat → Option Int) (src : Nat → Option Px) (buf : List Int) (b e : Nat × Nat) :
    Option (List Int) :=
  if e.1 > b.1 then do
    let u ← U.read buf b.1
    let u ← writeSlots set src (U.perUnit - b.2) b.2 0 u
    let buf ← U.write u buf b.1
    let between := e.1 - b.1 - 1
    let buf ← writeUnits U set src between (b.1 + 1) (U.perUnit - b.2) buf
    writeLast U set src buf (b.1 + 1 + between) 0 e.2 ((U.perUnit - b.2) + between * U.perUnit)
  else if e.1 = b.1 then writeLast U set src buf b.1 b.2 e.2 0
  else none

/-- The loop over rows of `write()`: S 353-396, X 437-480. -/
def writeRows (U : Units) (set : Px → Int → Nat → Option Int) (aligned : Bool) (imageWidth : Nat) (px py w : Nat)
    (tray : Nat → Nat → Option Px) : (n y : Nat) → List Int → Option (List Int)
  | 0, _, buf => some buf
  | n + 1, y, buf => do
    let b := pixelPos U.perUnit aligned imageWidth px (py + y)
    let e := pixelPos U.perUnit aligned imageWidth (px + w) (py + y)
    let buf ← writeRow U set (fun x => tray x y) buf b e
    writeRows U set aligned imageWidth px py w tray n (y + 1) buf

/-- `write()`: S 348-397, X 432-481. `tray x y` is the pixel at the specified position in the tray. -/
def write (U : Units) (set : Px → Int → Nat → Option Int) (aligned : Bool) (buf : List Int) (imageWidth imageHeight : Nat)
    (x y : Int) (w h : Nat) (tray : Nat → Nat → Option Px) : Option (List Int) :=
  if contained imageWidth imageHeight x y w h then writeRows U set aligned imageWidth x.toNat y.toNat w tray h 0 buf else none

/-! ### Filling

`set` is the function that stores the pixel: `do_set_pixel()` with the encoded pixel in `SubwordPixelFormat`, and `set_pixel()`
with the color in `IndexedPixelFormat`. -/

/-- The loop over `n` pixels of a unit, starting at position `p`: S 416-417, 423-424, 435-436, X 500-501, 507-508, 519-520. -/
def fillSlots (set : Int → Nat → Option Int) : (n p : Nat) → Int → Option Int
  | 0, _, u => some u
  | n + 1, p, u => do
    let u ← set u p
    fillSlots set n (p + 1) u

/-- The loop over `n` whole units, starting with unit `k`: S 421-427, X 505-511. -/
def fillUnits (U : Units) (set : Int → Nat → Option Int) : (n k : Nat) → List Int → Option (List Int)
  | 0, _, buf => some buf
  | n + 1, k, buf => do
    let u ← fillSlots set U.perUnit 0 0
    let buf ← U.write u buf k
    fillUnits U set n (k + 1) buf

/-- The last part of the row: S 433-438, X 517-522. -/
def fillLast (U : Units) (set : Int → Nat → Option Int) (buf : List Int) (k beginPos endPos : Nat) : Option (List Int) :=
  if endPos > beginPos then do
    let u ← U.read buf k
    let u ← fillSlots set (endPos - beginPos) beginPos u
    U.write u buf k
  else some buf

/-- The body of the loop over rows of `fill()`: S 407-438, X 491-522. -/
def fillRow (U : Units) (set : Int → Nat → Option Int) (buf : List Int) (b e : Nat × Nat) : Option (List Int) :=
  if e.1 > b.1 then do
    let u ← U.read buf b.1
    let u ← fillSlots set (U.perUnit - b.2) b.2 u
    let buf ← U.write u buf b.1
    let between := e.1 - b.1 - 1
    let buf ← fillUnits U set between (b.1 + 1) buf
    fillLast U set buf (b.1 + 1 + between) 0 e.2
  else if e.1 = b.1 then fillLast U set buf b.1 b.2 e.2
  else none

/-- The loop over rows of `fill()`: S 406-439, X 490-523. -/
def fillRows (U : Units) (set : Int → Nat → Option Int) (aligned : Bool) (imageWidth : Nat) (px w : Nat) :
    (n y : Nat) → List Int → Option (List Int)
  | 0, _, buf => some buf
  | n + 1, y, buf => do
    let b := pixelPos U.perUnit aligned imageWidth px y
    let e := pixelPos U.perUnit aligned imageWidth (px + w) y
    let buf ← fillRow U set buf b e
    fillRows U set aligned imageWidth px w n (y + 1) buf

/-- `fill()`: S 400-440, X 484-524 (in the former, the pixel is encoded first; see Verif/SubwordPixel/Model.lean). -/
def fill (U : Units) (set : Int → Nat → Option Int) (aligned : Bool) (buf : List Int) (imageWidth imageHeight : Nat)
    (x y : Int) (w h : Nat) : Option (List Int) :=
  if contained imageWidth imageHeight x y w h then fillRows U set aligned imageWidth x.toNat w h y.toNat buf else none

end Verif.PixelLoops
