import Verif.ImageIter.Model
import Verif.PixelBox.Spec
/-!
Grids of pixels in memory, and what it means that some of them are assigned new values.
-/
namespace Verif.ImageIter.Spec
open Verif.PixelBox.Spec

variable {α : Type}

/-- The address of component `c` of the pixel at the specified position. -/
def addr (it : Iter) (x y : Int) (c : Nat) : Int := it.base + x * it.horzStride + y * it.vertStride + c

/-- The memory has cells for `n` components of each of the pixels in the box, and no two of these cells are the same. -/
structure Grid (it : Iter) (n : Nat) (b : PixelBox.Box) (m : Mem α) : Prop where
  cell : ∀ (x y : Int) (c : Nat), Pixel b x y → c < n → m (addr it x y c) ≠ none
  distinct : ∀ (x y : Int) (c : Nat) (x' y' : Int) (c' : Nat), Pixel b x y → c < n → Pixel b x' y' → c' < n →
    addr it x y c = addr it x' y' c' → x = x' ∧ y = y' ∧ c = c'

/-- All components of the pixels in the box have values, which are those of `f`. -/
def Holds (it : Iter) (n : Nat) (b : PixelBox.Box) (f : Int → Int → Nat → α) (m : Mem α) : Prop :=
  ∀ (x y : Int) (c : Nat), Pixel b x y → c < n → m (addr it x y c) = some (some (f x y c))

/-- All memory is the same, except possibly the components of the pixels in the box. -/
def SameElsewhere (it : Iter) (n : Nat) (b : PixelBox.Box) (m m' : Mem α) : Prop :=
  ∀ a : Int, (∀ (x y : Int) (c : Nat), Pixel b x y → c < n → a ≠ addr it x y c) → m' a = m a

/-- The coordinate in the range of length `len` from `start` on that is obtained by a shift by a multiple of `len`. -/
def fold (start len v : Int) : Int := start + (v - start) % len

end Verif.ImageIter.Spec
