import Mathlib.Data.Rat.Defs
import Mathlib.Algebra.Order.Ring.Rat
import Mathlib.Algebra.Order.Group.Unbundled.Abs
/-!
Model of /repo/src/archon/core/inexact_compare.hpp: inexact comparison of floating-point numbers.

A floating-point number is a rational number, so infinities and NaNs are left out. `rnd` is the rounding of the result of a subtraction, or of a
multiplication, to a floating-point number.
-/
namespace Verif.InexactCompare

/-- `approximately_equal()`: inexact_compare.hpp:70-73. -/
def approximatelyEqual (rnd : Rat → Rat) (a b epsilon : Rat) : Prop := |rnd (a - b)| ≤ rnd (max |a| |b| * epsilon)

/-- `essentially_equal()`: inexact_compare.hpp:76-79. -/
def essentiallyEqual (rnd : Rat → Rat) (a b epsilon : Rat) : Prop := |rnd (a - b)| ≤ rnd (min |a| |b| * epsilon)

/-- `definitely_less()`: inexact_compare.hpp:82-85. -/
def definitelyLess (rnd : Rat → Rat) (a b epsilon : Rat) : Prop := rnd (b - a) > rnd (max |a| |b| * epsilon)

/-- `definitely_greater()`: inexact_compare.hpp:88-91. -/
def definitelyGreater (rnd : Rat → Rat) (a b epsilon : Rat) : Prop := definitelyLess rnd b a epsilon

end Verif.InexactCompare
