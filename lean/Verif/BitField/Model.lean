import Verif.BitField.Format
import Verif.BitMedium.Model
/-!
Model of the functions on bit fields: /repo/src/archon/image/bit_field.hpp.

`I` is the number of value bits of `int`. `none` is undefined behavior or a failed assertion. An array of fields together with its
size is a list. Field indexes are nonnegative. Loops over the array are recursions over the list.
-/
namespace Verif.BitField
open Verif.Integer Verif.BitMedium

/-- The loop of `valid_bit_fields()`: bit_field.hpp:132-139. The inner `none` is the return of `false`. -/
def validLoop (I : Nat) : List Field → Int → Option (Option Int)
  | [], total => some (some total)
  | field :: fields, total =>
    if field.width < 1 ∨ field.gap < 0 then some none
    else
      match tryAdd I (intTy I) (intTy I) total field.width with
      | none => none
      | some none => some none
      | some (some total) =>
        match tryAdd I (intTy I) (intTy I) total field.gap with
        | none => none
        | some none => some none
        | some (some total) => validLoop I fields total

/-- `valid_bit_fields()`: bit_field.hpp:129-141. -/
def validBitFields (I : Nat) (fields : List Field) (numAvailableBits : Int) : Option Bool :=
  match validLoop I fields 0 with
  | none => none
  | some none => some false
  | some (some total) => some (decide (total ≤ numAvailableBits))

/-- `get_bit_field_width()`: bit_field.hpp:144-149. -/
def getBitFieldWidth (fields : List Field) (i : Nat) : Option Int := (fields[i]?).map Field.width

/-- The loop of `get_bit_field_shift()`: bit_field.hpp:156-160. The list is the fields from the current one on. -/
def shiftLoop (I : Nat) : List Field → Int → Option Int
  | [], offset => some offset
  | field :: fields, offset => do
    let offset ← arith I (intTy I) (offset + field.width)
    let offset ← arith I (intTy I) (offset + field.gap)
    shiftLoop I fields offset

/-- `get_bit_field_shift()`: bit_field.hpp:152-163. -/
def getBitFieldShift (I : Nat) (fields : List Field) (i : Nat) : Option Int := do
  let field ← fields[i]?
  let offset ← shiftLoop I (fields.drop (i + 1)) 0
  arith I (intTy I) (offset + field.gap)

/-- `get_bit_field_mask<T>()`: bit_field.hpp:166-176. -/
def getBitFieldMask (I : Nat) (T : Ty) (fields : List Field) (i : Nat) : Option Int := do
  let width ← getBitFieldWidth fields i
  let shift ← getBitFieldShift I fields i
  let n := T.width
  if width ≤ n ∧ shift ≤ n - width then do
    let u := unpackedType I T n
    let mask ← intMask I u width.toNat
    let val ← shl u mask shift.toNat
    packInt I T n u val
  else none

/-- `widest_bit_field()`: bit_field.hpp:179-189. The second argument is `width`. -/
def widestLoop : List Field → Int → Int
  | [], width => width
  | field :: fields, width => if field.width ≤ width then widestLoop fields width else widestLoop fields field.width

/-- `widest_bit_field()`: bit_field.hpp:179-189. -/
def widestBitField (fields : List Field) : Int := widestLoop fields 0

end Verif.BitField
