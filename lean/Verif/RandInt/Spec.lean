import Verif.MulPrec.Spec
import Mathlib.Data.List.Forall2
/-!
What is expected of random multiple precision integers.
-/
namespace Verif.RandInt.Spec

/-- The random numbers that are drawn in an attempt are in the requested ranges. -/
def Drawn (maxima xs : List Nat) : Prop := List.Forall₂ (· ≤ ·) xs maxima

end Verif.RandInt.Spec
