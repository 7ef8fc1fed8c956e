import Verif.IntegerPixel.Format
import Verif.BitMedium.Model
import Verif.PixelGrid.Model
/-!
Model of `IntegerPixelFormat`: /repo/src/archon/image/integer_pixel_format.hpp.

Modelled for integer transfer representation, which is what is used when there are at most 16 bits per channel; of the
floating-point case, only the assembly of words is modelled. See Verif/PixelGrid/Model.lean for the loops of `read()`, `write()` and
`fill()`, and for the conventions. A pixel is the list of its components in canonical order.
-/
namespace Verif.IntegerPixel
open Verif.Integer Verif.BitMedium

/-- `bit_depth`: integer_pixel_format.hpp:136. -/
def Fmt.depth (f : Fmt) : Nat := f.D * f.B

/-- `words_per_pixel`: integer_pixel_format.hpp:137. -/
def Fmt.wpp (f : Fmt) : Nat := f.n * f.D

/-- `unpacked_comp_type`: integer_pixel_format.hpp:192. This type is its own promoted type. -/
def Fmt.vt (f : Fmt) : Ty := unpackedType f.I f.compType f.depth

/-- `comp_repr_bit_width<transf_repr>()`: comp_repr.hpp:714-721 (`choose_transf_repr()`) and 602-613. Only used when the depth is at
most 16. -/
def Fmt.compBits (f : Fmt) : Nat := if f.depth ≤ 8 then 8 else 16

/-- `is_transf_repr_match()`: integer_pixel_format.hpp:476-481. -/
def Fmt.match (f : Fmt) : Bool := f.D == 1 && f.same && f.compBits == f.depth

/-- `map_channel_index()`: integer_pixel_format.hpp:484-496. -/
def mapChannelIndex (f : Fmt) (i : Nat) : Option Nat :=
  if i < f.n then
    let j := if f.hasAlpha && f.alphaFirst then (i + 1) % f.n else i
    some (if f.reverse then (f.n - 1) - j else j)
  else none

/-- `map_word_index()`: integer_pixel_format.hpp:499-512. -/
def mapWordIndex (f : Fmt) (i : Nat) : Option Nat :=
  if i < f.D then some (if f.bigWords then i else (f.D - 1) - i) else none

/-- The loop of `read_comp()`: integer_pixel_format.hpp:420-424. `chan` is the index of the first word of the channel. The operation
`|=` takes place in the common type of the two operands. -/
def readLoop (f : Fmt) (buf : List Int) (chan : Nat) : (n i : Nat) → Int → Option Int
  | 0, _, comp => some comp
  | n + 1, i, comp => do
    let j ← mapWordIndex f i
    let comp ← shl f.vt comp f.B
    let w ← buf[chan + j]?
    let u ← unpackInt f.I f.B f.word w
    let type := common f.vt (unpackedType f.I f.word f.B)
    readLoop f buf chan n (i + 1) (cast f.vt (bitOr type (cast type comp) (cast type u)))

/-- `read_comp()`: integer_pixel_format.hpp:411-438. -/
def readComp (f : Fmt) (buf : List Int) (source : Nat) (channel : Nat) : Option Int := do
  let j ← mapChannelIndex f channel
  let chan := source + j * f.D
  if f.match then buf[chan]?
  else do
    let comp ← readLoop f buf chan f.D 0 0
    intToInt f.I f.depth f.comp f.compBits f.vt comp

/-- The loop of `write_comp()`: integer_pixel_format.hpp:464-471. -/
def writeLoop (f : Fmt) (comp : Int) (chan : Nat) : (n i : Nat) → List Int → Option (List Int)
  | 0, _, buf => some buf
  | n + 1, i, buf => do
    let shift := ((f.D - 1) - i) * f.B
    let val ← shr f.vt comp shift
    let mask ← intMask f.I f.vt f.B
    let word := bitAnd f.vt val mask
    let j ← mapWordIndex f i
    let w ← packInt f.I f.word f.B f.vt word
    if chan + j < buf.length then writeLoop f comp chan n (i + 1) (buf.set (chan + j) w) else none

/-- `write_comp()`: integer_pixel_format.hpp:441-473. -/
def writeComp (f : Fmt) (val : Int) (buf : List Int) (target : Nat) (channel : Nat) : Option (List Int) := do
  let j ← mapChannelIndex f channel
  let chan := target + j * f.D
  if f.match then
    if chan < buf.length then some (buf.set chan val) else none
  else do
    let comp ← intToInt f.I f.compBits f.vt f.depth f.comp val
    writeLoop f comp chan f.D 0 buf

/-- The loop of `read_pixel()`: integer_pixel_format.hpp:377-378. -/
def readComps (f : Fmt) (buf : List Int) (source : Nat) : (n i : Nat) → Option (List Int)
  | 0, _ => some []
  | n + 1, i => do
    let c ← readComp f buf source i
    let r ← readComps f buf source n (i + 1)
    some (c :: r)

/-- `read_pixel()`: integer_pixel_format.hpp:373-388. -/
def readPixel (f : Fmt) (buf : List Int) (source : Nat) : Option (List Int) := readComps f buf source f.n 0

/-- The loop of `write_pixel()`: integer_pixel_format.hpp:396-397. -/
def writeComps (f : Fmt) (color : List Int) (target : Nat) : (n i : Nat) → List Int → Option (List Int)
  | 0, _, buf => some buf
  | n + 1, i, buf => do
    let c ← color[i]?
    let buf ← writeComp f c buf target i
    writeComps f color target n (i + 1) buf

/-- `write_pixel()`: integer_pixel_format.hpp:391-408. -/
def writePixel (f : Fmt) (color : List Int) (buf : List Int) (target : Nat) : Option (List Int) := writeComps f color target f.n 0 buf

/-- `read()`: integer_pixel_format.hpp:291-305. The result is the list of rows of the tray. -/
def read (f : Fmt) (buf : List Int) (imageWidth imageHeight : Nat) (x y : Int) (w h : Nat) : Option (List (List (List Int))) :=
  PixelGrid.read (readPixel f) f.wpp buf imageWidth imageHeight x y w h

/-- `write()`: integer_pixel_format.hpp:308-322. The result is the buffer. -/
def write (f : Fmt) (buf : List Int) (imageWidth imageHeight : Nat) (x y : Int) (w h : Nat)
    (tray : Nat → Nat → Option (List Int)) : Option (List Int) :=
  PixelGrid.write (writePixel f) f.wpp buf imageWidth imageHeight x y w h tray

/-- `fill()`: integer_pixel_format.hpp:325-342. `init` is the initial contents of `color_2`. -/
def fill (f : Fmt) (init buf : List Int) (imageWidth imageHeight : Nat) (x y : Int) (w h : Nat) (color : List Int) :
    Option (List Int) :=
  PixelGrid.fill (writePixel f) f.wpp init buf imageWidth imageHeight x y w h color

/-- `get_buffer_size()`: integer_pixel_format.hpp:260-266. -/
def getBufferSize (f : Fmt) (Z : Nat) (imageWidth imageHeight : Int) : Option (Option Int) :=
  PixelGrid.getBufferSize f.I f.wpp Z imageWidth imageHeight

end Verif.IntegerPixel
