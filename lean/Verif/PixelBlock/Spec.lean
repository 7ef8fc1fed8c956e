import Mathlib.Data.Int.Notation
/-!
Two-dimensional arrays in row-major order.
-/
namespace Verif.PixelBlock.Spec

/-- The index in the buffer of component `c` of the item at column `x` of row `y` when there are `w` items per row and `n` components per
item. -/
def index (n : Nat) (w x y : Int) (c : Nat) : Int := (y * w + x) * n + c

/-- A position in an array of the specified size. -/
def InArray (w h x y : Int) : Prop := 0 ≤ x ∧ x < w ∧ 0 ≤ y ∧ y < h

end Verif.PixelBlock.Spec
