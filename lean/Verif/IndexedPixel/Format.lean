import Verif.Integer.Model
/-!
Parameters of an indexed pixel format.
-/
namespace Verif.IndexedPixel
open Verif.Integer (Ty)

/-- The parameters of `IndexedPixelFormat`: /repo/src/archon/image/indexed_pixel_format.hpp:118-191. `I` is the number of value
bits of `int`. `comp` is the type of the color indexes that are passed to `write()` and `fill()`, and that are produced by
`read()` (`transf_comp_type`). -/
structure Fmt where
  I : Nat
  compound : Ty
  word : Ty
  comp : Ty
  /-- Bits per pixel -/
  M : Nat
  /-- Pixels per compound -/
  N : Nat
  /-- Bit order is big-endian -/
  bigBits : Bool
  /-- Bits per word -/
  B : Nat
  /-- Words per compound -/
  D : Nat
  /-- Word order is big-endian -/
  bigWords : Bool
  /-- Rows are aligned on compound boundaries -/
  aligned : Bool

end Verif.IndexedPixel
