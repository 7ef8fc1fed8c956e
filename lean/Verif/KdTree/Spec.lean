import Mathlib.Algebra.BigOperators.Group.Finset.Basic
import Mathlib.Algebra.Ring.Defs
import Mathlib.Order.Defs.LinearOrder
import Mathlib.Data.List.Perm.Basic
/-!
Sorted sequences of points, and distance.
-/
namespace Verif.KdTree.Spec

/-- A sequence of points is organized as a balanced tree, whose root splits according to the specified dimension, and whose dimensions
are used cyclically: the root is in the middle, or just before it. No point before the root comes after the root in the specified
dimension, and no point after the root comes before it. -/
inductive Organized {P R : Type} [LinearOrder R] (k : Nat) (comp : P → Nat → R) : Nat → List P → Prop
  | empty (dim : Nat) : Organized k comp dim []
  | node (dim : Nat) (left right : List P) (root : P) :
    left.length = right.length ∨ left.length + 1 = right.length →
    (∀ p ∈ left, comp p dim ≤ comp root dim) → (∀ p ∈ right, comp root dim ≤ comp p dim) →
    Organized k comp ((dim + 1) % k) left → Organized k comp ((dim + 1) % k) right →
    Organized k comp dim (left ++ root :: right)

/-- Square of Euclidean distance. -/
def sqdist {P R : Type} [CommRing R] (k : Nat) (comp : P → Nat → R) (q : Nat → R) (p : P) : R :=
  ∑ i ∈ Finset.range k, (comp p i - q i) ^ 2

/-- What `std::nth_element()` guarantees. -/
def NthElement {P R : Type} [LinearOrder R] (comp : P → Nat → R) (dim n : Nat) (input output : List P) : Prop :=
  output.Perm input ∧ ∃ before x after, output = before ++ x :: after ∧ before.length = n ∧
    (∀ p ∈ before, ¬ comp x dim < comp p dim) ∧ (∀ p ∈ after, ¬ comp p dim < comp x dim)

end Verif.KdTree.Spec
