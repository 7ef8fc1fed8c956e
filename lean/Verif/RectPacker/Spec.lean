import Mathlib.Order.Bounds.Basic
import Mathlib.Data.Int.Order.Basic
/-!
Placement of rectangles.
-/
namespace Verif.RectPacker.Spec

/-- An area with sides along the axes. -/
structure Area where
  x : Int
  y : Int
  w : Int
  h : Int

/-- The first area is inside the second one. -/
def Area.inside (a b : Area) : Prop := b.x ≤ a.x ∧ b.y ≤ a.y ∧ a.x + a.w ≤ b.x + b.w ∧ a.y + a.h ≤ b.y + b.h

/-- One area is to the left of the other, or above it, and the gap is at least as wide as specified. -/
def Area.apart (gap : Int) (a b : Area) : Prop :=
  a.x + a.w + gap ≤ b.x ∨ b.x + b.w + gap ≤ a.x ∨ a.y + a.h + gap ≤ b.y ∨ b.y + b.h + gap ≤ a.y

/-- The part of a bin that is left when a margin is taken away on all sides. -/
def interior (width height margin : Int) : Area := ⟨margin, margin, width - 2 * margin, height - 2 * margin⟩

/-- A point is strictly inside an area. -/
def Area.covers (a : Area) (x y : Int) : Prop := a.x ≤ x ∧ x < a.x + a.w ∧ a.y ≤ y ∧ y < a.y + a.h

end Verif.RectPacker.Spec
