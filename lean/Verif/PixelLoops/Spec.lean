import Mathlib.Data.Nat.Basic
/-!
Rectangular areas of an image whose pixels are numbered row by row. `stride` is the number of pixel numbers per row; it is
larger than the width of the image when rows are padded.
-/
namespace Verif.PixelLoops.Spec

/-- The numbering when rows are, or are not padded to a multiple of `D` pixels. -/
def stride (D : Nat) (aligned : Bool) (imageWidth : Nat) : Nat :=
  if aligned then (if imageWidth % D = 0 then imageWidth else (imageWidth / D + 1) * D) else imageWidth

/-- The number of the pixel at the specified position. -/
def index (stride x y : Nat) : Nat := y * stride + x

/-- Number `i` is the number of a pixel in the area of size `(w, h)` at `(px, py)`. -/
def inside (stride px py w h i : Nat) : Bool :=
  decide (py ≤ i / stride ∧ i / stride < py + h ∧ px ≤ i % stride ∧ i % stride < px + w)

/-- The pixels of an image after the area of size `(w, h)` at `(px, py)` is replaced by `src`. -/
def draw {α : Type} (stride px py w h : Nat) (src : Nat → Nat → α) (img : Nat → α) (i : Nat) : α :=
  if inside stride px py w h i then src (i % stride - px) (i / stride - py) else img i

/-- The area of size `(w, h)` at `(px, py)` of an image, as a list of rows. -/
def crop {α : Type} (stride px py w h : Nat) (img : Nat → α) : List (List α) :=
  (List.range h).map fun y => (List.range w).map fun x => img (index stride (px + x) (py + y))

/-- The smallest number of units of `D` pixels that hold an image of the specified size. -/
def IsUnitCount (D : Nat) (aligned : Bool) (imageWidth imageHeight m : Nat) : Prop :=
  stride D aligned imageWidth * imageHeight ≤ m * D ∧ ∀ m', stride D aligned imageWidth * imageHeight ≤ m' * D → m ≤ m'

/-- The number with the specified digits in base `b`, most significant digit first. -/
def num (b : Nat) (l : List Nat) : Nat := l.foldl (fun a d => a * b + d) 0

/-- The order in which channels are stored, given their canonical order, where an alpha channel is last. -/
def order {α : Type} (hasAlpha alphaFirst reverse : Bool) (l : List α) : List α :=
  let l := if hasAlpha && alphaFirst then l.drop (l.length - 1) ++ l.take (l.length - 1) else l
  if reverse then l.reverse else l

end Verif.PixelLoops.Spec
