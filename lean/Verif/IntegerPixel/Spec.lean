import Verif.IntegerPixel.Format
import Verif.BitMedium.Spec
import Verif.PixelGrid.Spec
import Verif.UnitFrac.Spec
/-!
Specification of an integer pixel format.

The pixels of an image are numbered row by row, without padding. An image is a function that gives the list of channel values, in
canonical order, of the pixel with the specified number.
-/
namespace Verif.IntegerPixel.Spec
open Verif.PixelLoops.Spec

/-- The number of bits per channel. -/
def depth (f : Fmt) : Nat := f.D * f.B

/-- The number of bits of the components of pixels when they are transferred. -/
def compBits (f : Fmt) : Nat := if depth f ≤ 8 then 8 else 16

/-- A format that is accepted by the class template. -/
structure Accepted (f : Fmt) : Prop where
  I : 1 ≤ f.I
  n : 0 < f.n
  B : 0 < f.B
  D : 0 < f.D
  word : f.B ≤ BitMedium.Spec.width f.word
  compType : depth f ≤ BitMedium.Spec.width f.compType
  int : f.n * f.D < 2 ^ f.I

/-- An accepted format that uses integers for transfer of pixels. In addition, type `int` must have more than 16 bits. -/
structure Ok (f : Fmt) : Prop extends Accepted f where
  I16 : 16 ≤ f.I
  depth : depth f ≤ 16
  comp : compBits f ≤ BitMedium.Spec.width f.comp
  same : f.same = true → f.comp = f.word

/-- Channel values of a pixel in the image. -/
def ValidPixel (f : Fmt) (c : List Nat) : Prop := c.length = f.n ∧ ∀ v ∈ c, v < 2 ^ depth f

/-- Channel values of a pixel that is transferred. -/
def ValidColor (f : Fmt) (c : List Nat) : Prop := c.length = f.n ∧ ∀ v ∈ c, v < 2 ^ compBits f

/-- The bits of a channel value that are stored in word `i` of the channel: the first word holds the most significant bits
(big-endian), or the least significant bits (little-endian). -/
def wordBits (f : Fmt) (v i : Nat) : Nat := v / 2 ^ (f.B * (if f.bigWords then f.D - 1 - i else i)) % 2 ^ f.B

/-- Word `t` of a pixel with the specified channel values. The words of a channel are consecutive. -/
def pixelWord (f : Fmt) (c : List Nat) (t : Nat) : Int :=
  BitMedium.Spec.packed f.word f.B (wordBits f ((order f.hasAlpha f.alphaFirst f.reverse c).getD (t / f.D) 0) (t % f.D))

/-- The contents of a buffer of `m` pixels. -/
def encode (f : Fmt) (m : Nat) (img : Nat → List Nat) : List Int := PixelGrid.Spec.encode (pixelWord f) (f.n * f.D) m img

/-- The components of a pixel that is read. -/
def transferred (f : Fmt) (c : List Nat) : List Int :=
  c.map fun v => BitMedium.Spec.packed f.comp (compBits f) (UnitFrac.Spec.convert v (2 ^ depth f - 1) (2 ^ compBits f - 1))

/-- The channel values of a pixel that is written, as they are stored. -/
def quantized (f : Fmt) (c : List Nat) : List Nat :=
  c.map fun v => UnitFrac.Spec.convert v (2 ^ compBits f - 1) (2 ^ depth f - 1)

/-- The components of a pixel that is passed to the pixel format. -/
def color (f : Fmt) (c : List Nat) : List Int := c.map fun v => BitMedium.Spec.packed f.comp (compBits f) v

end Verif.IntegerPixel.Spec
