import Verif.Integer.Model
import Verif.BitField.Format
/-!
Parameters of a packed pixel format.
-/
namespace Verif.PackedPixel
open Verif.Integer (Ty)

/-- The parameters of `PackedPixelFormat`: /repo/src/archon/image/packed_pixel_format.hpp:128-157. `I` is the number of value bits
of `int`. `comp` is the type of the components of the pixels that are passed to `write()` and `fill()`, and that are produced by
`read()` (`transf_comp_type`). There is one field per channel. -/
structure Fmt where
  I : Nat
  compound : Ty
  word : Ty
  comp : Ty
  /-- `channel_packing_type::fields` -/
  fields : List BitField.Field
  /-- Bits per word -/
  B : Nat
  /-- Words per pixel -/
  D : Nat
  /-- Word order is big-endian -/
  bigWords : Bool
  hasAlpha : Bool
  alphaFirst : Bool
  reverse : Bool

end Verif.PackedPixel
