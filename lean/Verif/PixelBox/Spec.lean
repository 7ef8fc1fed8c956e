import Verif.PixelBox.Model
import Mathlib.Algebra.Order.Ring.Int
/-!
What a box denotes.
-/
namespace Verif.PixelBox.Spec

/-- The pixel at column `px` and row `py` is in the box. -/
def Pixel (b : Box) (px py : Int) : Prop := (b.x ≤ px ∧ px < b.x + b.w) ∧ (b.y ≤ py ∧ py < b.y + b.h)

/-- The number is representable in type `int`. -/
def Rep (I : Nat) (v : Int) : Prop := -2 ^ I ≤ v ∧ v ≤ 2 ^ I - 1

/-- The components are representable. -/
def Exists (I : Nat) (b : Box) : Prop := Rep I b.x ∧ Rep I b.y ∧ Rep I b.w ∧ Rep I b.h

/-- Documented validity: the size is not negative, and the end of the box is representable. -/
def Valid (I : Nat) (b : Box) : Prop := 0 ≤ b.w ∧ 0 ≤ b.h ∧ Rep I (b.x + b.w) ∧ Rep I (b.y + b.h)

/-- The distances between the positions are representable. -/
def Near (I : Nat) (a b : Box) : Prop := |a.x - b.x| ≤ 2 ^ I - 1 ∧ |a.y - b.y| ≤ 2 ^ I - 1

end Verif.PixelBox.Spec
