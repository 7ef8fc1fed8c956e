import Verif.PackedPixel.Format
import Verif.BitField.Spec
import Verif.PixelGrid.Spec
import Verif.UnitFrac.Spec
/-!
Specification of a packed pixel format.

The pixels of an image are numbered row by row, without padding. An image is a function that gives the bits, as an integer, of the
pixel with the specified number.
-/
namespace Verif.PackedPixel.Spec
open Verif.PixelLoops.Spec

/-- The number of bits of the components of pixels when they are transferred. -/
def compBits (f : Fmt) : Nat := if ∀ g ∈ f.fields, g.width ≤ 8 then 8 else 16

/-- A format that is accepted by the class template, and that uses integers for transfer of pixels. -/
structure Ok (f : Fmt) : Prop where
  I : 1 ≤ f.I
  B : 0 < f.B
  D : 0 < f.D
  int : f.D * f.B < 2 ^ f.I
  fields : BitField.Spec.Valid f.fields (f.D * f.B : Nat)
  word : f.B ≤ BitMedium.Spec.width f.word
  compound : f.D * f.B ≤ BitMedium.Spec.width f.compound
  w16 : ∀ g ∈ f.fields, g.width ≤ 16
  comp : compBits f ≤ BitMedium.Spec.width f.comp

/-- The list whose elements, arranged in the specified order, are the elements of the specified list. The inverse of `order`. -/
def unorder {α : Type} (hasAlpha alphaFirst reverse : Bool) (l : List α) : List α :=
  let l := if reverse then l.reverse else l
  if hasAlpha && alphaFirst then l.drop 1 ++ l.take 1 else l

/-- The widths of the channels in canonical order. -/
def widths (f : Fmt) : List Nat := unorder f.hasAlpha f.alphaFirst f.reverse (f.fields.map fun g => g.width.toNat)

/-- The channel values, in canonical order, of a pixel with the specified bits. -/
def channels (f : Fmt) (v : Nat) : List Nat :=
  unorder f.hasAlpha f.alphaFirst f.reverse ((List.range f.fields.length).map (BitField.Spec.extract f.fields v))

/-- The bits of a pixel with the specified channel values. -/
def pixelBits (f : Fmt) (c : List Nat) : Nat := BitField.Spec.pack f.fields (order f.hasAlpha f.alphaFirst f.reverse c)

/-- Channel values of a pixel in the image. -/
def ValidPixel (f : Fmt) (c : List Nat) : Prop := c.length = f.fields.length ∧ ∀ (i w v : Nat), (widths f)[i]? = some w → c[i]? = some v → v < 2 ^ w

/-- Channel values of a pixel that is transferred. -/
def ValidColor (f : Fmt) (c : List Nat) : Prop := c.length = f.fields.length ∧ ∀ v ∈ c, v < 2 ^ compBits f

/-- The bits of a pixel that are stored in word `i` of the pixel: the first word holds the most significant bits (big-endian), or
the least significant bits (little-endian). -/
def wordBits (f : Fmt) (v i : Nat) : Nat := v / 2 ^ (f.B * (if f.bigWords then f.D - 1 - i else i)) % 2 ^ f.B

/-- The contents of a buffer of `m` pixels. -/
def encode (f : Fmt) (m : Nat) (img : Nat → Nat) : List Int :=
  PixelGrid.Spec.encode (fun v i => BitMedium.Spec.packed f.word f.B (wordBits f v i)) f.D m img

/-- The components of a pixel that is read. -/
def transferred (f : Fmt) (c : List Nat) : List Int :=
  List.zipWith (fun w v => BitMedium.Spec.packed f.comp (compBits f) (UnitFrac.Spec.convert v (2 ^ w - 1) (2 ^ compBits f - 1)))
    (widths f) c

/-- The channel values of a pixel that is written, as they are stored. -/
def quantized (f : Fmt) (c : List Nat) : List Nat :=
  List.zipWith (fun w v => UnitFrac.Spec.convert v (2 ^ compBits f - 1) (2 ^ w - 1)) (widths f) c

/-- The components of a pixel that is passed to the pixel format. -/
def color (f : Fmt) (c : List Nat) : List Int := c.map fun v => BitMedium.Spec.packed f.comp (compBits f) v

end Verif.PackedPixel.Spec
