import Verif.PackedPixel.Format
import Verif.BitField.Model
import Verif.PixelGrid.Model
/-!
Model of `PackedPixelFormat`: /repo/src/archon/image/packed_pixel_format.hpp.

Modelled for integer transfer representation, which is what is used when no field is wider than 16 bits; the floating-point case is
not modelled. See Verif/PixelGrid/Model.lean for the loops of `read()`, `write()` and `fill()`, and for the conventions. A pixel is
the list of its components in canonical order.
-/
namespace Verif.PackedPixel
open Verif.Integer Verif.BitMedium Verif.BitField

/-- `num_channels`: packed_pixel_format.hpp:143 and 155-156. -/
def Fmt.n (f : Fmt) : Nat := f.fields.length

/-- `bits_per_pixel`: packed_pixel_format.hpp:144. -/
def Fmt.bpp (f : Fmt) : Nat := f.D * f.B

/-- `value_type`: packed_pixel_format.hpp:223. This type is its own promoted type. -/
def Fmt.vt (f : Fmt) : Ty := unpackedType f.I f.compound f.bpp

/-- `comp_repr_bit_width<transf_repr>()`: packed_pixel_format.hpp:145-146 and 173, comp_repr.hpp:714-721 (`choose_transf_repr()`) and
602-613. Only used when no field is wider than 16 bits. -/
def Fmt.compBits (f : Fmt) : Nat := if widestBitField f.fields ≤ 8 then 8 else 16

/-- `map_channel_index()`: packed_pixel_format.hpp:536-549. -/
def mapChannelIndex (f : Fmt) (i : Nat) : Option Nat :=
  if i < f.n then
    let j := if f.hasAlpha && f.alphaFirst then (i + 1) % f.n else i
    some (if f.reverse then (f.n - 1) - j else j)
  else none

/-- `map_word_index()`: packed_pixel_format.hpp:552-565. -/
def mapWordIndex (f : Fmt) (i : Nat) : Option Nat :=
  if i < f.D then some (if f.bigWords then (f.D - 1) - i else i) else none

/-- `get_channel_width()`: packed_pixel_format.hpp:383-388. -/
def getChannelWidth (f : Fmt) (channel : Nat) : Option Int := do
  let field ← mapChannelIndex f channel
  getBitFieldWidth f.fields field

/-- `get_channel_shift()`: packed_pixel_format.hpp:391-396. -/
def getChannelShift (f : Fmt) (channel : Nat) : Option Int := do
  let field ← mapChannelIndex f channel
  getBitFieldShift f.I f.fields field

/-- `get_component()`: packed_pixel_format.hpp:481-503. -/
def getComponent (f : Fmt) (pixel : Int) (channel : Nat) : Option Int := do
  let width ← getChannelWidth f channel
  let shift ← getChannelShift f channel
  let val ← shr f.vt pixel shift.toNat
  let mask ← intMask f.I f.vt width
  let value := bitAnd f.vt val mask
  intToInt f.I width.toNat f.comp f.compBits f.vt value

/-- `set_component()`: packed_pixel_format.hpp:506-533. -/
def setComponent (f : Fmt) (pixel : Int) (value : Int) (channel : Nat) : Option Int := do
  let width ← getChannelWidth f channel
  let shift ← getChannelShift f channel
  let value2 ← intToInt f.I f.compBits f.vt width.toNat f.comp value
  let val ← shl f.vt value2 shift.toNat
  some (bitOr f.vt pixel val)

/-- The first loop of `read_pixel()`: packed_pixel_format.hpp:422-425. -/
def readLoop (f : Fmt) (buf : List Int) (source : Nat) : (n i : Nat) → Int → Option Int
  | 0, _, pixel => some pixel
  | n + 1, i, pixel => do
    let q ← mapWordIndex f i
    let shift := q * f.B
    let w ← buf[source + i]?
    let u ← unpackInt f.I f.B f.word w
    let val ← shl f.vt (cast f.vt u) shift
    readLoop f buf source n (i + 1) (bitOr f.vt pixel val)

/-- The loop over channels of `read_pixel()`: packed_pixel_format.hpp:429-432. -/
def getComponents (f : Fmt) (pixel : Int) : (n i : Nat) → Option (List Int)
  | 0, _ => some []
  | n + 1, i => do
    let c ← getComponent f pixel i
    let r ← getComponents f pixel n (i + 1)
    some (c :: r)

/-- `read_pixel()`: packed_pixel_format.hpp:417-445. -/
def readPixel (f : Fmt) (buf : List Int) (source : Nat) : Option (List Int) := do
  let pixel ← readLoop f buf source f.D 0 0
  getComponents f pixel f.n 0

/-- The loop over channels of `write_pixel()`: packed_pixel_format.hpp:454-457. -/
def setComponents (f : Fmt) (source : List Int) : (n i : Nat) → Int → Option Int
  | 0, _, pixel => some pixel
  | n + 1, i, pixel => do
    let c ← source[i]?
    let pixel ← setComponent f pixel c i
    setComponents f source n (i + 1) pixel

/-- The last loop of `write_pixel()`: packed_pixel_format.hpp:473-477. -/
def writeLoop (f : Fmt) (pixel : Int) (target : Nat) : (n i : Nat) → List Int → Option (List Int)
  | 0, _, buf => some buf
  | n + 1, i, buf => do
    let q ← mapWordIndex f i
    let shift := q * f.B
    let val ← shr f.vt pixel shift
    let mask ← intMask f.I f.vt f.B
    let value := bitAnd f.vt val mask
    let w ← packInt f.I f.word f.B f.vt value
    if target + i < buf.length then writeLoop f pixel target n (i + 1) (buf.set (target + i) w) else none

/-- `write_pixel()`: packed_pixel_format.hpp:448-478. -/
def writePixel (f : Fmt) (source : List Int) (buf : List Int) (target : Nat) : Option (List Int) := do
  let pixel ← setComponents f source f.n 0 0
  writeLoop f pixel target f.D 0 buf

/-- `read()`: packed_pixel_format.hpp:307-322. The result is the list of rows of the tray. -/
def read (f : Fmt) (buf : List Int) (imageWidth imageHeight : Nat) (x y : Int) (w h : Nat) : Option (List (List (List Int))) :=
  PixelGrid.read (readPixel f) f.D buf imageWidth imageHeight x y w h

/-- `write()`: packed_pixel_format.hpp:325-339. The result is the buffer. -/
def write (f : Fmt) (buf : List Int) (imageWidth imageHeight : Nat) (x y : Int) (w h : Nat)
    (tray : Nat → Nat → Option (List Int)) : Option (List Int) :=
  PixelGrid.write (writePixel f) f.D buf imageWidth imageHeight x y w h tray

/-- `fill()`: packed_pixel_format.hpp:342-358. `init` is the initial contents of `color_2`. -/
def fill (f : Fmt) (init buf : List Int) (imageWidth imageHeight : Nat) (x y : Int) (w h : Nat) (color : List Int) :
    Option (List Int) :=
  PixelGrid.fill (writePixel f) f.D init buf imageWidth imageHeight x y w h color

/-- `get_buffer_size()`: packed_pixel_format.hpp:273-279. -/
def getBufferSize (f : Fmt) (Z : Nat) (imageWidth imageHeight : Int) : Option (Option Int) :=
  PixelGrid.getBufferSize f.I f.D Z imageWidth imageHeight

end Verif.PackedPixel
