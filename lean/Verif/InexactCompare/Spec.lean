import Mathlib.Data.Rat.Defs
import Mathlib.Algebra.Order.Ring.Rat
/-!
What is expected of rounding, and what it means for precisely one of three claims to be true.
-/
namespace Verif.InexactCompare.Spec

/-- Rounding that preserves order, and treats numbers and their negations alike, as is the case for rounding to nearest, and for rounding towards
zero. -/
structure Rounding (rnd : Rat → Rat) : Prop where
  mono : ∀ x y, x ≤ y → rnd x ≤ rnd y
  odd : ∀ x, rnd (-x) = -rnd x

/-- Precisely one of three. -/
def OneOf (p q r : Prop) : Prop := (p ∧ ¬ q ∧ ¬ r) ∨ (¬ p ∧ q ∧ ¬ r) ∨ (¬ p ∧ ¬ q ∧ r)

end Verif.InexactCompare.Spec
