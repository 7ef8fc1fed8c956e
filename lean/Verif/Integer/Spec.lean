import Verif.Integer.Model
/-
Specification for integers: ranges and mathematical operations, stated without the functions of the model
(only the type `Ty`, which says signedness and number of value bits).
-/
namespace Verif.Integer.Spec

/-- `x` is a value of the type. -/
def Fits (t : Ty) (x : Int) : Prop := (if t.signed then -(2 ^ t.bits) else 0) ≤ x ∧ x < 2 ^ t.bits

instance (t : Ty) (x : Int) : Decidable (Fits t x) := inferInstanceAs (Decidable (_ ∧ _))

/-- The correct outcome of a checked operation with mathematical result `x`, when the result is to be stored in
a variable of type `t`: no undefined behaviour, and success exactly when the result fits. -/
def checked (t : Ty) (x : Int) : Option (Option Int) := some (if Fits t x then some x else none)

/-- The value that `v` of type `F` stands for, when an unsigned type is taken to hold two's complement. -/
def tcVal (F : Ty) (v : Int) : Int :=
  if F.signed = false ∧ 2 ^ (F.bits - 1) ≤ v then v - 2 ^ F.bits else v

/-- The value has a two's complement representation in the full width of `T`. -/
def TCFits (T : Ty) (x : Int) : Prop :=
  if T.signed then -(2 ^ T.bits) ≤ x ∧ x < 2 ^ T.bits
  else -(2 ^ (T.bits - 1)) ≤ x ∧ x < 2 ^ (T.bits - 1)

instance (T : Ty) (x : Int) : Decidable (TCFits T x) := by unfold TCFits; infer_instance

/-- `x` raised to the power of `n`, rounded towards zero; not defined when zero is raised to a negative power. -/
def pow (x n : Int) : Option Int :=
  if 0 ≤ n then some (x ^ n.toNat)
  else if x = 0 then none
  else some (Int.tdiv 1 (x ^ (-n).toNat))

/-- `r` is congruent to `a` modulo `b` and lies between zero (included) and `b` (excluded). -/
def PeriodicMod (a b r : Int) : Prop := b ∣ a - r ∧ ((0 < b ∧ 0 ≤ r ∧ r < b) ∨ (b < 0 ∧ b < r ∧ r ≤ 0))

/-- `p` is the position of the most significant bit of `x`. -/
def MsbPos (t : Ty) (x p : Int) : Prop :=
  (x < 0 → p = t.bits) ∧ (x = 0 → p = -1) ∧ (0 < x → 0 ≤ p ∧ 2 ^ p.toNat ≤ x ∧ x < 2 ^ (p.toNat + 1))

/-- The absolute value of `x` has `n` digits in the given base (zero has no digits). -/
def NumDigits (x base : Int) (n : Nat) : Prop :=
  x.natAbs < base.natAbs ^ n ∧ (n = 0 ∨ base.natAbs ^ (n - 1) ≤ x.natAbs)

end Verif.Integer.Spec
