import Verif.SubwordPixel.Format
import Verif.BitMedium.Spec
import Verif.PixelLoops.Spec
import Verif.UnitFrac.Spec
/-!
Specification of a pixel format with several pixels per word.

The pixels of an image are numbered row by row (see Verif/PixelLoops/Spec.lean). An image is a function that gives the list of
channel values, in canonical order, of the pixel with the specified number.
-/
namespace Verif.SubwordPixel.Spec
open Verif.PixelLoops.Spec Verif.BitMedium

/-- A format that is accepted by the class template, and that uses integers for transfer of pixels. The type of components must
be able to hold 8 or 16 bits, depending on the number of bits per channel. -/
structure Ok (f : Fmt) : Prop where
  I : 1 ≤ f.I
  n : 0 < f.n
  B : 0 < f.B
  D : 0 < f.D
  word : f.D * (f.n * f.B) ≤ Spec.width f.word
  B16 : f.B ≤ 16
  comp : (if f.B ≤ 8 then 8 else 16) ≤ Spec.width f.comp

/-- The number of bits of the components of pixels when they are transferred. -/
def compBits (f : Fmt) : Nat := if f.B ≤ 8 then 8 else 16

/-- Channel values of a pixel in the image. -/
def ValidPixel (f : Fmt) (c : List Nat) : Prop := c.length = f.n ∧ ∀ v ∈ c, v < 2 ^ f.B

/-- Channel values of a pixel that is transferred. -/
def ValidColor (f : Fmt) (c : List Nat) : Prop := c.length = f.n ∧ ∀ v ∈ c, v < 2 ^ compBits f

/-- The bits of a pixel: the first of the stored channels occupies the most significant bits. -/
def pixelBits (f : Fmt) (c : List Nat) : Nat := num (2 ^ f.B) (order f.hasAlpha f.alphaFirst f.reverse c)

/-- The bits of word `k`: the first pixel occupies the most significant bits (big-endian), or the least significant bits
(little-endian). All other bits are zero. -/
def wordBits (f : Fmt) (img : Nat → List Nat) (k : Nat) : Nat :=
  let pixels := (List.range f.D).map fun p => pixelBits f (img (k * f.D + p))
  num (2 ^ (f.n * f.B)) (if f.big then pixels else pixels.reverse)

/-- The contents of a buffer of `m` words. -/
def encode (f : Fmt) (m : Nat) (img : Nat → List Nat) : List Int :=
  (List.range m).map fun k => Spec.packed f.word (f.D * (f.n * f.B)) (wordBits f img k)

/-- The components of a pixel that is read. -/
def transferred (f : Fmt) (c : List Nat) : List Int :=
  c.map fun v => Spec.packed f.comp (compBits f) (UnitFrac.Spec.convert v (2 ^ f.B - 1) (2 ^ compBits f - 1))

/-- The channel values of a pixel that is written, as they are stored. -/
def quantized (f : Fmt) (c : List Nat) : List Nat :=
  c.map fun v => UnitFrac.Spec.convert v (2 ^ compBits f - 1) (2 ^ f.B - 1)

/-- The components of a pixel that is passed to the pixel format. -/
def color (f : Fmt) (c : List Nat) : List Int := c.map fun v => Spec.packed f.comp (compBits f) v

/-- The number of pixel numbers per row. -/
def rowStride (f : Fmt) (imageWidth : Nat) : Nat := stride f.D f.aligned imageWidth

/-- The number of pixels, unused ones at ends of rows included. -/
def numPixels (f : Fmt) (imageWidth imageHeight : Nat) : Nat := rowStride f imageWidth * imageHeight

end Verif.SubwordPixel.Spec
