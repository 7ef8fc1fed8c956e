import Verif.ImageWriter.Model
import Verif.ImageReader.Spec
/-!
What is to become of an image when pixels are written.
-/
namespace Verif.ImageWriter.Spec
open Verif.PixelBox.Spec Verif.ImageReader

variable {α β φ P : Type}

/-- The position is in the box, and in an image of size `(W, H)`. -/
def Hit (W H : Int) (b : PixelBox.Box) (x y : Int) : Prop := Pixel ⟨0, 0, W, H⟩ x y ∧ Pixel b x y

/-- At positions in `hit`, the second image is as specified by `f`. At all other positions, it is as the first one. -/
def Changed (hit : Int → Int → Prop) (f : Int → Int → P) (a b : Int → Int → P) : Prop :=
  ∀ x y : Int, (hit x y → b x y = f x y) ∧ (¬hit x y → b x y = a x y)

/-- The same for images with direct or indexed color. -/
def Painted (hit : Int → Int → Prop) (color : Int → Int → List α) (index : Int → Int → Nat) : Pixels α → Pixels α → Prop
  | .direct a, .direct b => Changed hit color a b
  | .indexed a, .indexed b => Changed hit index a b
  | _, _ => False

/-- The pixels of a block. They have `c` components each. -/
structure Block (m : ImageIter.Mem β) (t : ImageIter.Tray) (c : Nat) (f : Int → Int → List β) : Prop where
  len : ∀ x y : Int, Pixel ⟨0, 0, t.w, t.h⟩ x y → (f x y).length = c
  mem : ∀ (x y : Int) (i : Nat), Pixel ⟨0, 0, t.w, t.h⟩ x y → i < c → m (ImageIter.Spec.addr t.iter x y i) = some (f x y)[i]?

/-- The effect of the opacity of the writer on a color. -/
def scaled (wr : Writer α φ) (c : List φ) : List φ := if wr.unscaled then c else c.map wr.scale

/-- The first color over the second one. The alpha component comes last. -/
def over (wr : Writer α φ) (c d : List φ) : List φ :=
  match c.getLast? with
  | none => []
  | some alpha => List.zipWith (wr.over alpha) c d

/-- The effect of writing of the first color when the existing color is the second one. -/
def blended (wr : Writer α φ) (c d : List φ) : List φ := if wr.blending then over wr c d else c

/-- The color of a pixel of the image in representation `float_`, with alpha component, and when that is not the representation of the image. -/
def existing (wr : Writer α φ) (st : Pixels α) (x y : Int) : List φ := ImageReader.Spec.colorF (wr.at st) x y

/-- The color of a pixel of the image, with alpha component, when the representation of the image is `float_`. -/
def existingN (wr : Writer φ φ) (st : Pixels φ) (x y : Int) : List φ := ImageReader.Spec.color (wr.at st) true x y

/-- The sizes of the image, the palette and so on are as they should be. -/
structure WriterOk (I : Nat) (wr : Writer α φ) : Prop where
  channels : ((wr.reader.colors : Int) + 1) * 4096 < 2 ^ I
  fromFloat : ∀ p : List φ, p.length = wr.reader.colors + 1 → (wr.fromFloat p).length = wr.reader.colors + wr.reader.hasAlpha.toNat

/-- How the pixels of the image are read and written, what is the color of a pixel that is there already, and how a color becomes that of a pixel,
depending on whether the representation of the image is `float_`. -/
inductive Setup (I : Nat) : {α φ : Type} → Writer α φ → Access α φ → (Pixels α → Int → Int → List φ) → (List φ → List α) → Prop where
  | other {α φ : Type} (wr : Writer α φ) : Setup I wr (wr.access I) (existing wr) wr.fromFloat
  | float {φ : Type} (wr : Writer φ φ) : Setup I wr (wr.accessN I) (existingN wr) (List.take (wr.reader.colors + wr.reader.hasAlpha.toNat))

/-- How the pixels of an origin image are read in representation `float_` with alpha and in a color space with the specified number of channels, and
what is seen at each position. -/
inductive Origin (I : Nat) {φ : Type} (colors : Nat) : (Int → Int → ImageIter.Tray → ImageIter.Mem φ → Option (ImageIter.Mem φ)) → (Int → Int → List φ) → Prop where
  | same {δ : Type} (r : Reader φ δ) (hr : ImageReader.Spec.Consistent I r) (hc : r.colors = colors) :
    Origin I colors (r.readN I true)
      (ImageReader.Spec.extended r.horz r.vert r.w r.h (ImageReader.Spec.color r true) (ImageReader.Spec.background r true))
  | converted {δ : Type} (r : Reader δ φ) (hr : ImageReader.Spec.Consistent I r) (hk : ((r.colors : Int) + 1) * 4096 < 2 ^ I) (q : Request)
    (conv : List φ → List φ) (hc : ∀ p, p.length = r.colors + 1 → (conv p).length = colors + 1) (hq : q.colors = colors ∧ q.hasAlpha = true) :
    Origin I colors (r.readGF I q conv)
      (fun x y => conv (ImageReader.Spec.extended r.horz r.vert r.w r.h (ImageReader.Spec.colorF r) r.bgF x y))
  | convertedFloat {δ : Type} (r : Reader φ δ) (hr : ImageReader.Spec.Consistent I r) (hk : ((r.colors : Int) + 1) * 4096 < 2 ^ I) (q : Request)
    (conv : List φ → List φ) (hc : ∀ p, p.length = r.colors + 1 → (conv p).length = colors + 1) (hq : q.colors = colors ∧ q.hasAlpha = true) :
    Origin I colors (r.readGN I q conv)
      (fun x y => conv (ImageReader.Spec.extended r.horz r.vert r.w r.h (ImageReader.Spec.color r true) (ImageReader.Spec.background r true) x y))

/-- The colors of a slot have the right number of components. -/
structure SlotOk (wr : Writer α φ) (convert : List φ → List α) (slot : Slot α φ) : Prop where
  r : wr.reader.colors + wr.reader.hasAlpha.toNat ≤ slot.r.length
  u : wr.reader.colors + wr.reader.hasAlpha.toNat ≤ slot.u.length
  f : slot.f.length = wr.reader.colors + 1
  convert : ∀ p, (convert p).length = p.length

/-- What is required of the position and the size of a block of pixels. The position may be anything but the least value of type `int`. -/
structure BoxOk (I : Nat) (b : PixelBox.Box) : Prop where
  x : -2 ^ I < b.x ∧ b.x ≤ 2 ^ I - 1
  y : -2 ^ I < b.y ∧ b.y ≤ 2 ^ I - 1
  w : 0 ≤ b.w ∧ b.w ≤ 2 ^ I - 1
  h : 0 ≤ b.h ∧ b.h ≤ 2 ^ I - 1

end Verif.ImageWriter.Spec
