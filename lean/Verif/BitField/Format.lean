/-!
Bit fields.
-/
namespace Verif.BitField

/-- `BitField`: /repo/src/archon/image/bit_field.hpp:47-67. -/
structure Field where
  width : Int
  gap : Int

end Verif.BitField
