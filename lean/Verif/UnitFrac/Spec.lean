/-!
Fractions of unity in exact arithmetic. The fraction `v / max` is represented by the integer `v`.
-/
namespace Verif.UnitFrac.Spec

/-- The default model: the fraction `v / max1` is multiplied by `max2 + 1` and rounded down. Unity is mapped to `max2`. -/
def convert (v max1 max2 : Nat) : Nat := min max2 (v * (max2 + 1) / max1)

/-- The alternate model: the fraction `v / max1` is multiplied by `max2`, one half is added, and the sum is rounded
down. -/
def convertA (v max1 max2 : Nat) : Nat := min max2 ((2 * (v * max2) + max1) / (2 * max1))

/-- `q` is an integer that is closest to the exact value `v * max2 / max1`. -/
def Nearest (v max1 max2 q : Nat) : Prop :=
  2 * (v * max2) ≤ 2 * (q * max1) + max1 ∧ 2 * (q * max1) ≤ 2 * (v * max2) + max1

/-- The exact value is halfway between two integers. -/
def Tie (v max1 max2 : Nat) : Prop := ∃ q, 2 * (v * max2) = 2 * (q * max1) + max1

end Verif.UnitFrac.Spec
