import Verif.IndexedPixel.Format
import Verif.BitMedium.Spec
import Verif.PixelLoops.Spec
/-!
Specification of an indexed pixel format.

The pixels of an image are numbered row by row (see Verif/PixelLoops/Spec.lean). An image is a function that gives the color index
of the pixel with the specified number.
-/
namespace Verif.IndexedPixel.Spec
open Verif.PixelLoops.Spec Verif.BitMedium

/-- A format that is accepted by the class template, and whose color indexes can be transferred (8 bits). -/
structure Ok (f : Fmt) : Prop where
  I : 1 ≤ f.I
  M : 0 < f.M
  M8 : f.M ≤ 8
  N : 0 < f.N
  B : 0 < f.B
  D : 0 < f.D
  fits : f.N * f.M ≤ f.D * f.B
  word : f.B ≤ Spec.width f.word
  compound : f.D * f.B ≤ Spec.width f.compound
  comp : 8 ≤ Spec.width f.comp

/-- The color indexes that can be stored. -/
def ValidIndex (f : Fmt) (v : Nat) : Prop := v < 2 ^ f.M

/-- The bits of compound `k`: the first pixel occupies the most significant of the bits that are used for pixels (big-endian), or
the least significant bits (little-endian). All other bits are zero. -/
def compoundBits (f : Fmt) (img : Nat → Nat) (k : Nat) : Nat :=
  let pixels := (List.range f.N).map fun p => img (k * f.N + p)
  num (2 ^ f.M) (if f.bigBits then pixels else pixels.reverse)

/-- The bits of a compound that are stored in word `i` of the compound: the first word holds the most significant bits
(big-endian), or the least significant bits (little-endian). -/
def wordBits (f : Fmt) (v i : Nat) : Nat := v / 2 ^ (f.B * (if f.bigWords then f.D - 1 - i else i)) % 2 ^ f.B

/-- The contents of a buffer of `m` compounds. -/
def encode (f : Fmt) (m : Nat) (img : Nat → Nat) : List Int :=
  (List.range (m * f.D)).map fun j => Spec.packed f.word f.B (wordBits f (compoundBits f img (j / f.D)) (j % f.D))

/-- The color index in packed form. -/
def color (f : Fmt) (v : Nat) : Int := Spec.packed f.comp 8 v

/-- The number of pixel numbers per row. -/
def rowStride (f : Fmt) (imageWidth : Nat) : Nat := stride f.N f.aligned imageWidth

/-- The number of pixels, unused ones at ends of rows included. -/
def numPixels (f : Fmt) (imageWidth imageHeight : Nat) : Nat := rowStride f imageWidth * imageHeight

end Verif.IndexedPixel.Spec
