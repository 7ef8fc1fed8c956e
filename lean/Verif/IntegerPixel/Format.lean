import Verif.Integer.Model
/-!
Parameters of an integer pixel format.
-/
namespace Verif.IntegerPixel
open Verif.Integer (Ty)

/-- The parameters of `IntegerPixelFormat`: /repo/src/archon/image/integer_pixel_format.hpp:121-147. `I` is the number of value bits
of `int`. `comp` is the type of the components of the pixels that are passed to `write()` and `fill()`, and that are produced by
`read()` (`transf_comp_type`). -/
structure Fmt where
  I : Nat
  /-- `word_type` -/
  word : Ty
  /-- `comp_type` -/
  compType : Ty
  /-- `transf_comp_type` -/
  comp : Ty
  /-- `std::is_same_v<transf_comp_type, word_type>` -/
  same : Bool
  /-- Number of channels -/
  n : Nat
  /-- Bits per word -/
  B : Nat
  /-- Words per channel -/
  D : Nat
  /-- Word order is big-endian -/
  bigWords : Bool
  hasAlpha : Bool
  alphaFirst : Bool
  reverse : Bool

end Verif.IntegerPixel
