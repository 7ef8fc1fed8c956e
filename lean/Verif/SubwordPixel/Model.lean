import Verif.SubwordPixel.Format
import Verif.BitMedium.Model
import Verif.PixelLoops.Model
/-!
Model of `SubwordPixelFormat`: /repo/src/archon/image/subword_pixel_format.hpp.

Modelled for integer transfer representation, which is what is used when there are at most 16 bits per channel; the
floating-point case is not modelled. See Verif/PixelLoops/Model.lean for the loops of `read()`, `write()` and `fill()`, and for
the conventions. A pixel is the list of its components in canonical order.
-/
namespace Verif.SubwordPixel
open Verif.Integer Verif.BitMedium

/-- `bits_per_pixel`: subword_pixel_format.hpp:145. -/
def Fmt.bpp (f : Fmt) : Nat := f.n * f.B

/-- `bits_per_word`: subword_pixel_format.hpp:146. -/
def Fmt.bpw (f : Fmt) : Nat := f.D * f.bpp

/-- `value_type`: subword_pixel_format.hpp:206. This type is its own promoted type. -/
def Fmt.vt (f : Fmt) : Ty := unpackedType f.I f.word f.bpw

/-- `comp_repr_bit_width<transf_repr>()`: comp_repr.hpp:714-721 (`choose_transf_repr()`) and 602-613. Only used when `B ≤ 16`. -/
def Fmt.compBits (f : Fmt) : Nat := if f.B ≤ 8 then 8 else 16

/-- The operator `^` of a promoted type. -/
def bitXor (t : Ty) (x y : Int) : Int := cast t ((bitsOf t x ^^^ bitsOf t y : Nat) : Int)

/-- `map_channel_pos()`: subword_pixel_format.hpp:590-602. -/
def mapChannelPos (f : Fmt) (pos : Nat) : Option Nat :=
  if pos < f.n then
    let pos2 := if f.hasAlpha && f.alphaFirst then (pos + 1) % f.n else pos
    some (if !f.reverse then (f.n - 1) - pos2 else pos2)
  else none

/-- `map_pixel_pos()`: subword_pixel_format.hpp:605-617. -/
def mapPixelPos (f : Fmt) (pos : Nat) : Option Nat :=
  if pos < f.D then some (if f.big then (f.D - 1) - pos else pos) else none

/-- `read_word()`: subword_pixel_format.hpp:474-478. -/
def readWord (f : Fmt) (buf : List Int) (k : Nat) : Option Int := do
  let w ← buf[k]?
  unpackInt f.I f.bpw f.word w

/-- `write_word()`: subword_pixel_format.hpp:481-485. -/
def writeWord (f : Fmt) (word : Int) (buf : List Int) (k : Nat) : Option (List Int) :=
  if k < buf.length then do
    let w ← packInt f.I f.word f.bpw f.vt word
    some (buf.set k w)
  else none

/-- `read_comp()`: subword_pixel_format.hpp:537-554. -/
def readComp (f : Fmt) (pixel : Int) (channel : Nat) : Option Int := do
  let pos ← mapChannelPos f channel
  let val ← shr f.vt pixel (pos * f.B)
  let mask ← intMask f.I f.vt f.B
  let comp := bitAnd f.vt val mask
  intToInt f.I f.B f.comp f.compBits f.vt comp

/-- `write_comp()`: subword_pixel_format.hpp:557-578. -/
def writeComp (f : Fmt) (comp : Int) (pixel : Int) (channel : Nat) : Option Int := do
  let comp2 ← intToInt f.I f.compBits f.vt f.B f.comp comp
  let pos ← mapChannelPos f channel
  let val ← shl f.vt comp2 (pos * f.B)
  some (bitOr f.vt pixel val)

/-- The loop of `get_pixel()`: subword_pixel_format.hpp:493-494. -/
def readComps (f : Fmt) (pixel : Int) : (n i : Nat) → Option (List Int)
  | 0, _ => some []
  | n + 1, i => do
    let c ← readComp f pixel i
    let r ← readComps f pixel n (i + 1)
    some (c :: r)

/-- `get_pixel()`: subword_pixel_format.hpp:488-504. -/
def getPixel (f : Fmt) (word : Int) (pos : Nat) : Option (List Int) := do
  let q ← mapPixelPos f pos
  let val ← shr f.vt word (q * f.bpp)
  let mask ← intMask f.I f.vt f.bpp
  let pixel := bitAnd f.vt val mask
  readComps f pixel f.n 0

/-- The loop of `encode_pixel()`: subword_pixel_format.hpp:521-522. -/
def writeComps (f : Fmt) (source : List Int) : (n i : Nat) → Int → Option Int
  | 0, _, pixel => some pixel
  | n + 1, i, pixel => do
    let c ← source[i]?
    let pixel ← writeComp f c pixel i
    writeComps f source n (i + 1) pixel

/-- `encode_pixel()`: subword_pixel_format.hpp:516-534. -/
def encodePixel (f : Fmt) (source : List Int) : Option Int := writeComps f source f.n 0 0

/-- `do_set_pixel()`: subword_pixel_format.hpp:581-587. -/
def doSetPixel (f : Fmt) (pixel : Int) (word : Int) (pos : Nat) : Option Int := do
  let q ← mapPixelPos f pos
  let shift := q * f.bpp
  let mask1 ← intMask f.I f.vt f.bpw
  let mask2 ← intMask f.I f.vt f.bpp
  let mask3 ← shl f.vt mask2 shift
  let word := bitAnd f.vt word (bitXor f.vt mask1 mask3)
  let val ← shl f.vt pixel shift
  some (bitOr f.vt word val)

/-- `set_pixel()`: subword_pixel_format.hpp:507-513. -/
def setPixel (f : Fmt) (source : List Int) (word : Int) (pos : Nat) : Option Int := do
  let pixel ← encodePixel f source
  doSetPixel f pixel word pos

/-- What the loops need to know about words. -/
def units (f : Fmt) : PixelLoops.Units := { perUnit := f.D, read := readWord f, write := writeWord f }

/-- `read()`: subword_pixel_format.hpp:299-345. The result is the list of rows of the tray. -/
def read (f : Fmt) (buf : List Int) (imageWidth imageHeight : Nat) (x y : Int) (w h : Nat) : Option (List (List (List Int))) :=
  PixelLoops.read (units f) (getPixel f) f.aligned buf imageWidth imageHeight x y w h

/-- `write()`: subword_pixel_format.hpp:348-397. The result is the buffer. -/
def write (f : Fmt) (buf : List Int) (imageWidth imageHeight : Nat) (x y : Int) (w h : Nat)
    (tray : Nat → Nat → Option (List Int)) : Option (List Int) :=
  PixelLoops.write (units f) (setPixel f) f.aligned buf imageWidth imageHeight x y w h tray

/-- `fill()`: subword_pixel_format.hpp:400-440. -/
def fill (f : Fmt) (buf : List Int) (imageWidth imageHeight : Nat) (x y : Int) (w h : Nat) (color : List Int) :
    Option (List Int) :=
  if PixelLoops.contained imageWidth imageHeight x y w h then do
    let pixel ← encodePixel f color
    PixelLoops.fill (units f) (doSetPixel f pixel) f.aligned buf imageWidth imageHeight x y w h
  else none

/-- `core::int_mul()` of a variable of type `std::size_t` (with `Z` bits) by a value of type `int`. The inner `none` is an
exception. -/
def sizeMul (I Z : Nat) (x y : Int) : Option (Option Int) := tryMul I ⟨false, Z⟩ (intTy I) x y

/-- `get_words_per_row()`: subword_pixel_format.hpp:443-451. -/
def getWordsPerRow (f : Fmt) (Z : Nat) (imageWidth : Int) : Option (Option Int) :=
  match sizeMul f.I Z 1 imageWidth with
  | none => none
  | some none => some none
  | some (some n) => (divRoundUp f.I ⟨false, Z⟩ (intTy f.I) n f.D).map some

/-- `get_buffer_size()`: subword_pixel_format.hpp:258-272. -/
def getBufferSize (f : Fmt) (Z : Nat) (imageWidth imageHeight : Int) : Option (Option Int) :=
  if f.aligned then
    match getWordsPerRow f Z imageWidth with
    | none => none
    | some none => some none
    | some (some size) => sizeMul f.I Z size imageHeight
  else
    match sizeMul f.I Z 1 imageWidth with
    | none => none
    | some none => some none
    | some (some n) =>
      match sizeMul f.I Z n imageHeight with
      | none => none
      | some none => some none
      | some (some n) => (divRoundUp f.I ⟨false, Z⟩ (intTy f.I) n f.D).map some

end Verif.SubwordPixel
