import Verif.PixelLoops.Model
import Verif.SubwordPixel.Model
/-!
Model of the loops of `read()`, `write()` and `fill()` that are the same in `IntegerPixelFormat`
(/repo/src/archon/image/integer_pixel_format.hpp) and `PackedPixelFormat` (/repo/src/archon/image/packed_pixel_format.hpp). In both,
each pixel is stored in a fixed number of words.

Line numbers of `IntegerPixelFormat` are marked N, and those of `PackedPixelFormat` are marked P. A buffer is the list of the values
of its words. `none` is undefined behavior (such as access outside the buffer) or a failed assertion. A pixel has type `Px`. Sizes are
nonnegative. Index arithmetic is exact: it is assumed that the number of words of the image can be represented in type
`std::ptrdiff_t`.
-/
namespace Verif.PixelGrid
open Verif.Integer Verif.PixelLoops
open Verif.SubwordPixel (sizeMul)

/-- `get_pixel_ptr()`: N 355-370, P 399-414. The index of the first word of the pixel. `wpp` is `words_per_pixel`. -/
def pixelPtr (wpp imageWidth x y : Nat) : Nat := (y * imageWidth + x) * wpp

variable {Px : Type}

/-- The inner loop of `read()`: N 300-304, P 316-320. The first argument is the number of remaining pixels. `readPixel` is
`read_pixel()`, given the buffer and the index of the first word of the pixel. -/
def readRow (readPixel : List Int → Nat → Option Px) (wpp : Nat) (buf : List Int) : (n source : Nat) → Option (List Px)
  | 0, _ => some []
  | n + 1, source => do
    let a ← readPixel buf source
    let r ← readRow readPixel wpp buf n (source + wpp)
    some (a :: r)

/-- The outer loop of `read()`: N 297-305, P 313-321. -/
def readRows (readPixel : List Int → Nat → Option Px) (wpp imageWidth : Nat) (buf : List Int) (px py w : Nat) :
    (n y : Nat) → Option (List (List Px))
  | 0, _ => some []
  | n + 1, y => do
    let a ← readRow readPixel wpp buf w (pixelPtr wpp imageWidth px (py + y))
    let r ← readRows readPixel wpp imageWidth buf px py w n (y + 1)
    some (a :: r)

/-- `read()`: N 292-306, P 307-322. The result is the list of rows of the tray. -/
def read (readPixel : List Int → Nat → Option Px) (wpp : Nat) (buf : List Int) (imageWidth imageHeight : Nat) (x y : Int) (w h : Nat) :
    Option (List (List Px)) :=
  if contained imageWidth imageHeight x y w h then readRows readPixel wpp imageWidth buf x.toNat y.toNat w h 0 else none

/-- The inner loop of `write()`: N 317-321, P 333-337. `src` is the row of the tray; `none` outside the tray. -/
def writeRow (writePixel : Px → List Int → Nat → Option (List Int)) (wpp : Nat) (src : Nat → Option Px) :
    (n x target : Nat) → List Int → Option (List Int)
  | 0, _, _, buf => some buf
  | n + 1, x, target, buf => do
    let a ← src x
    let buf ← writePixel a buf target
    writeRow writePixel wpp src n (x + 1) (target + wpp) buf

/-- The outer loop of `write()`: N 314-322, P 330-338. -/
def writeRows (writePixel : Px → List Int → Nat → Option (List Int)) (wpp imageWidth px py w : Nat) (tray : Nat → Nat → Option Px) :
    (n y : Nat) → List Int → Option (List Int)
  | 0, _, buf => some buf
  | n + 1, y, buf => do
    let buf ← writeRow writePixel wpp (fun x => tray x y) w 0 (pixelPtr wpp imageWidth px (py + y)) buf
    writeRows writePixel wpp imageWidth px py w tray n (y + 1) buf

/-- `write()`: N 309-323, P 325-339. `tray x y` is the pixel at the specified position in the tray. -/
def write (writePixel : Px → List Int → Nat → Option (List Int)) (wpp : Nat) (buf : List Int) (imageWidth imageHeight : Nat) (x y : Int)
    (w h : Nat) (tray : Nat → Nat → Option Px) : Option (List Int) :=
  if contained imageWidth imageHeight x y w h then writeRows writePixel wpp imageWidth x.toNat y.toNat w tray h 0 buf else none

/-- `std::copy_n()`: N 338, P 354. The words from index `i` on are copied to `target`. -/
def copyN (color : List Int) (target : Nat) : (n i : Nat) → List Int → Option (List Int)
  | 0, _, buf => some buf
  | n + 1, i, buf => do
    let w ← color[i]?
    if target + i < buf.length then copyN color target n (i + 1) (buf.set (target + i) w) else none

/-- The inner loop of `fill()`: N 337-340, P 353-356. -/
def fillRow (wpp : Nat) (color : List Int) : (n target : Nat) → List Int → Option (List Int)
  | 0, _, buf => some buf
  | n + 1, target, buf => do
    let buf ← copyN color target wpp 0 buf
    fillRow wpp color n (target + wpp) buf

/-- The outer loop of `fill()`: N 335-341, P 351-357. -/
def fillRows (wpp imageWidth px w : Nat) (color : List Int) : (n y : Nat) → List Int → Option (List Int)
  | 0, _, buf => some buf
  | n + 1, y, buf => do
    let buf ← fillRow wpp color w (pixelPtr wpp imageWidth px y) buf
    fillRows wpp imageWidth px w color n (y + 1) buf

/-- `fill()`: N 326-342, P 342-358. `init` is the initial contents of `color_2`. -/
def fill (writePixel : Px → List Int → Nat → Option (List Int)) (wpp : Nat) (init : List Int) (buf : List Int)
    (imageWidth imageHeight : Nat) (x y : Int) (w h : Nat) (color : Px) : Option (List Int) :=
  if contained imageWidth imageHeight x y w h then do
    let color2 ← writePixel color init 0
    fillRows wpp imageWidth x.toNat w color2 h y.toNat buf
  else none

/-- `get_words_per_row()`: N 345-352, P 373-380. `Z` is the number of bits of `std::size_t`. The inner `none` is an exception. -/
def getWordsPerRow (I wpp Z : Nat) (imageWidth : Int) : Option (Option Int) :=
  match sizeMul I Z 1 wpp with
  | none => none
  | some none => some none
  | some (some n) => sizeMul I Z n imageWidth

/-- `get_buffer_size()`: N 260-266, P 273-279. -/
def getBufferSize (I wpp Z : Nat) (imageWidth imageHeight : Int) : Option (Option Int) :=
  match getWordsPerRow I wpp Z imageWidth with
  | none => none
  | some none => some none
  | some (some size) => sizeMul I Z size imageHeight

end Verif.PixelGrid
