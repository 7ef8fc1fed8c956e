import Verif.ImageReader.Model
import Verif.ImageIter.Spec
/-!
What is seen when an image is read, inside and outside its boundary.
-/
namespace Verif.ImageReader.Spec

variable {β : Type}

/-- The row or column of an image of size `size > 0` that is seen at coordinate `v`, or none when the background is seen. -/
def seen (mode : Mode) (size v : Int) : Option Int :=
  match mode with
  | .background => if 0 ≤ v ∧ v < size then some v else none
  | .edge => some (max 0 (min v (size - 1)))
  | .repeat => some (v % size)

/-- What is seen at a position when an image of size `(W, H)` is extended in all directions. -/
def extended (horz vert : Mode) (W H : Int) (img : Int → Int → β) (bg : β) (x y : Int) : β :=
  if 0 < W ∧ 0 < H then
    match seen horz W x, seen vert H y with
    | some a, some b => img a b
    | _, _ => bg
  else bg

/-- Extension of a part of the plane, namely that with `0 ≤ x < W`, in horizontal directions. -/
def extendHorz (mode : Mode) (W : Int) (plane : Int → Int → β) (bg : β) (x y : Int) : β :=
  match seen mode W x with
  | some a => plane a y
  | none => bg

/-- Extension of a part of the plane, namely that with `0 ≤ y < H`, in vertical directions. -/
def extendVert (mode : Mode) (H : Int) (plane : Int → Int → β) (bg : β) (x y : Int) : β :=
  match seen mode H y with
  | some b => plane x b
  | none => bg

/-- The lists of components are as long as they should be, and the size of the image is representable. -/
structure Consistent {α φ : Type} (I : Nat) (r : Reader α φ) : Prop where
  w : 0 ≤ r.w ∧ r.w ≤ 2 ^ I - 1
  h : 0 ≤ r.h ∧ r.h ≤ 2 ^ I - 1
  color : ∀ color, r.pixels = .direct color → ∀ x y : Int, 0 ≤ x → x < r.w → 0 ≤ y → y < r.h → (color x y).length = r.colors + r.hasAlpha.toNat
  palette : ∀ p ∈ r.palette, p.length = r.colors + 1
  paletteF : ∀ p ∈ r.paletteF, p.length = r.colors + 1
  bgU : r.bgU.length = r.colors + 1
  bgR : r.bgR.length = r.colors + r.hasAlpha.toNat
  bgN : r.bgN.length = r.colors + 1
  bgF : r.bgF.length = r.colors + 1
  toFloat : ∀ p : List α, p.length = r.colors + r.hasAlpha.toNat → (r.toFloat r.hasAlpha true p).length = r.colors + 1

/-- The color of a pixel of the image in the representation of the image, with or without alpha component. Pixels of an image without alpha
channel are opaque. The background color stands in for colors that are not in the palette. -/
def color {α φ : Type} (r : Reader α φ) (alpha : Bool) (x y : Int) : List α :=
  match r.pixels with
  | .direct color => if alpha && !r.hasAlpha then color x y ++ [r.max] else color x y
  | .indexed index => (r.palette[index x y]?).getD (if alpha then r.bgU else r.bgR)

/-- The color of a pixel of the image in representation `float_`, with alpha component. -/
def colorF {α φ : Type} (r : Reader α φ) (x y : Int) : List φ :=
  match r.pixels with
  | .direct color => r.toFloat r.hasAlpha true (color x y)
  | .indexed index => (r.paletteF[index x y]?).getD r.bgF

/-- The background color in the representation of the image, with or without alpha component. -/
def background {α φ : Type} (r : Reader α φ) (alpha : Bool) : List α := if r.isFloat then r.bgN else if alpha then r.bgU else r.bgR

/-- The tray has the specified colors. -/
def Shows {α : Type} (it : ImageIter.Iter) (n : Nat) (b : PixelBox.Box) (f : Int → Int → List α) (m : ImageIter.Mem α) : Prop :=
  ∀ (x y : Int) (c : Nat), PixelBox.Spec.Pixel b x y → c < n → ∃ v, (f x y)[c]? = some v ∧ m (ImageIter.Spec.addr it x y c) = some (some v)

end Verif.ImageReader.Spec
