import Verif.BitField.Format
import Verif.BitMedium.Spec
/-!
Fields of a sequence of bits. The fields are listed from the most significant one to the least significant one.
-/
namespace Verif.BitField.Spec

/-- The number of bits of the fields, gaps included. -/
def total (fields : List Field) : Int := (fields.map fun f => f.width + f.gap).sum

/-- Every field has a bit, and the fields, gaps included, do not need more than `n` bits. -/
def Valid (fields : List Field) (n : Int) : Prop := (∀ f ∈ fields, 1 ≤ f.width ∧ 0 ≤ f.gap) ∧ total fields ≤ n

/-- The position of the least significant bit of field `i`: the number of bits that come after it. -/
def shift (fields : List Field) (i : Nat) : Nat :=
  match fields[i]? with
  | none => 0
  | some f => (f.gap + total (fields.drop (i + 1))).toNat

/-- The number of bits of field `i`. -/
def width (fields : List Field) (i : Nat) : Nat :=
  match fields[i]? with
  | none => 0
  | some f => f.width.toNat

/-- The integer with the specified values in the fields, and zeros in the gaps. -/
def pack : List Field → List Nat → Nat
  | f :: fields, v :: values => v * 2 ^ (f.gap + total fields).toNat + pack fields values
  | _, _ => 0

/-- The value of field `i` of an integer. -/
def extract (fields : List Field) (v i : Nat) : Nat := v / 2 ^ shift fields i % 2 ^ width fields i

/-- One value for each field, each with no more bits than the field. -/
def Fits (fields : List Field) (values : List Nat) : Prop :=
  values.length = fields.length ∧ ∀ i (h : i < values.length), values[i] < 2 ^ width fields i

end Verif.BitField.Spec
