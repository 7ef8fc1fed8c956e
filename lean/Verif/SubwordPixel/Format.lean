import Verif.Integer.Model
/-!
Parameters of a pixel format with several pixels per word.
-/
namespace Verif.SubwordPixel
open Verif.Integer (Ty)

/-- The parameters of `SubwordPixelFormat`: /repo/src/archon/image/subword_pixel_format.hpp:129-154. `I` is the number of value
bits of `int`, `word` is the type of words, `comp` is the type of the components of the pixels that are passed to `write()` and
`fill()`, and that are produced by `read()`. -/
structure Fmt where
  I : Nat
  word : Ty
  comp : Ty
  /-- Number of channels -/
  n : Nat
  /-- Bits per channel -/
  B : Nat
  /-- Pixels per word -/
  D : Nat
  /-- Bit order is big-endian -/
  big : Bool
  hasAlpha : Bool
  alphaFirst : Bool
  reverse : Bool
  /-- Rows are aligned on word boundaries -/
  aligned : Bool

end Verif.SubwordPixel
