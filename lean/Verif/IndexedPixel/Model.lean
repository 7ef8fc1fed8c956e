import Verif.IndexedPixel.Format
import Verif.SubwordPixel.Model
/-!
Model of `IndexedPixelFormat`: /repo/src/archon/image/indexed_pixel_format.hpp.

See Verif/PixelLoops/Model.lean for the loops of `read()`, `write()` and `fill()`, and for the conventions. A pixel is a color
index in packed form.
-/
namespace Verif.IndexedPixel
open Verif.Integer Verif.BitMedium
open Verif.SubwordPixel (bitXor sizeMul)

/-- `bits_per_compound`: indexed_pixel_format.hpp:199. -/
def Fmt.bpc (f : Fmt) : Nat := f.D * f.B

/-- `value_type`: indexed_pixel_format.hpp:282. This type is its own promoted type. -/
def Fmt.vt (f : Fmt) : Ty := unpackedType f.I f.compound f.bpc

/-- `comp_repr_int_bit_width(transf_repr)`, where `transf_repr` is `int8`: indexed_pixel_format.hpp:238, comp_repr.hpp:144. -/
def indexBits : Nat := 8

/-- `map_pixel_pos()`: indexed_pixel_format.hpp:604-616. -/
def mapPixelPos (f : Fmt) (pos : Nat) : Option Nat :=
  if pos < f.N then some (if f.bigBits then (f.N - 1) - pos else pos) else none

/-- `map_word_index()`: indexed_pixel_format.hpp:619-632. -/
def mapWordIndex (f : Fmt) (i : Nat) : Option Nat :=
  if i < f.D then some (if f.bigWords then (f.D - 1) - i else i) else none

/-- The loop of `read_compound()`: indexed_pixel_format.hpp:563-566. `source` is the index of the first word of the compound. -/
def readLoop (f : Fmt) (buf : List Int) (source : Nat) : (n i : Nat) → Int → Option Int
  | 0, _, value => some value
  | n + 1, i, value => do
    let q ← mapWordIndex f i
    let shift := q * f.B
    let w ← buf[source + i]?
    let u ← unpackInt f.I f.B f.word w
    let val ← shl f.vt (cast f.vt u) shift
    readLoop f buf source n (i + 1) (bitOr f.vt value val)

/-- `read_compound()`: indexed_pixel_format.hpp:559-568. -/
def readCompound (f : Fmt) (buf : List Int) (k : Nat) : Option Int := readLoop f buf (k * f.D) f.D 0 0

/-- The loop of `write_compound()`: indexed_pixel_format.hpp:574-578. -/
def writeLoop (f : Fmt) (value : Int) (target : Nat) : (n i : Nat) → List Int → Option (List Int)
  | 0, _, buf => some buf
  | n + 1, i, buf => do
    let q ← mapWordIndex f i
    let shift := q * f.B
    let val ← shr f.vt value shift
    let mask ← intMask f.I f.vt f.B
    let value2 := bitAnd f.vt val mask
    let w ← packInt f.I f.word f.B f.vt value2
    if target + i < buf.length then writeLoop f value target n (i + 1) (buf.set (target + i) w) else none

/-- `write_compound()`: indexed_pixel_format.hpp:571-579. -/
def writeCompound (f : Fmt) (value : Int) (buf : List Int) (k : Nat) : Option (List Int) :=
  writeLoop f value (k * f.D) f.D 0 buf

/-- `get_pixel()`: indexed_pixel_format.hpp:582-589, comp_repr.hpp:505-516. -/
def getPixel (f : Fmt) (compound : Int) (pos : Nat) : Option Int := do
  let q ← mapPixelPos f pos
  let val ← shr f.vt compound (q * f.M)
  let mask ← intMask f.I f.vt f.M
  let value := bitAnd f.vt val mask
  packInt f.I f.comp indexBits f.vt value

/-- `set_pixel()`: indexed_pixel_format.hpp:592-601, comp_repr.hpp:519-530. -/
def setPixel (f : Fmt) (source : Int) (compound : Int) (pos : Nat) : Option Int := do
  let u ← unpackInt f.I indexBits f.comp source
  let value := cast f.vt u
  let q ← mapPixelPos f pos
  let shift := q * f.M
  let mask1 ← intMask f.I f.vt f.bpc
  let mask2 ← intMask f.I f.vt f.M
  let mask3 ← shl f.vt mask2 shift
  let compound := bitAnd f.vt compound (bitXor f.vt mask1 mask3)
  let val ← shl f.vt value shift
  some (bitOr f.vt compound val)

/-- What the loops need to know about compounds. -/
def units (f : Fmt) : PixelLoops.Units := { perUnit := f.N, read := readCompound f, write := writeCompound f }

/-- `read()`: indexed_pixel_format.hpp:382-429. The result is the list of rows of the tray. -/
def read (f : Fmt) (buf : List Int) (imageWidth imageHeight : Nat) (x y : Int) (w h : Nat) : Option (List (List Int)) :=
  PixelLoops.read (units f) (getPixel f) f.aligned buf imageWidth imageHeight x y w h

/-- `write()`: indexed_pixel_format.hpp:432-481. The result is the buffer. -/
def write (f : Fmt) (buf : List Int) (imageWidth imageHeight : Nat) (x y : Int) (w h : Nat) (tray : Nat → Nat → Option Int) :
    Option (List Int) :=
  PixelLoops.write (units f) (setPixel f) f.aligned buf imageWidth imageHeight x y w h tray

/-- `fill()`: indexed_pixel_format.hpp:484-525. -/
def fill (f : Fmt) (buf : List Int) (imageWidth imageHeight : Nat) (x y : Int) (w h : Nat) (color : Int) : Option (List Int) :=
  PixelLoops.fill (units f) (setPixel f color) f.aligned buf imageWidth imageHeight x y w h

/-- `core::int_div_round_up(n, pixels_per_compound)` followed by `core::int_mul(m, words_per_compound)`, as in
indexed_pixel_format.hpp:348-349 and 533-534. -/
def numWords (f : Fmt) (Z : Nat) (n : Int) : Option (Option Int) :=
  match divRoundUp f.I ⟨false, Z⟩ (intTy f.I) n f.N with
  | none => none
  | some m => sizeMul f.I Z m f.D

/-- `get_words_per_row()`: indexed_pixel_format.hpp:527-536. -/
def getWordsPerRow (f : Fmt) (Z : Nat) (imageWidth : Int) : Option (Option Int) :=
  match sizeMul f.I Z 1 imageWidth with
  | none => none
  | some none => some none
  | some (some n) => numWords f Z n

/-- `get_buffer_size()`: indexed_pixel_format.hpp:336-352. -/
def getBufferSize (f : Fmt) (Z : Nat) (imageWidth imageHeight : Int) : Option (Option Int) :=
  if f.aligned then
    match getWordsPerRow f Z imageWidth with
    | none => none
    | some none => some none
    | some (some size) => sizeMul f.I Z size imageHeight
  else
    match sizeMul f.I Z 1 imageWidth with
    | none => none
    | some none => some none
    | some (some n) =>
      match sizeMul f.I Z n imageHeight with
      | none => none
      | some none => some none
      | some (some n) => numWords f Z n

end Verif.IndexedPixel
