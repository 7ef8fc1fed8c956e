import Verif.Palette.Model
import Verif.ColorSlot.Spec
import Verif.ImageReader.Spec
/-!
Palettes: The colors of a palette are the pixels of the palette image in row-major order, as far as there are color indexes for them.
-/
namespace Verif.Palette.Spec
open Verif.ImageIter Verif.ColorSlot Verif.PixelBox.Spec

variable {α φ : Type}

/-- The number of colors in the palette. -/
def numColors : Option (Int × Int) → Nat
  | none => 0
  | some (w, h) => min (w.toNat * h.toNat) 256

/-- The color with the specified index. `img` is the palette image, and `w` its width. -/
def entry (img : Int → Int → List α) (w : Int) (index : Nat) : List α := img (index % w) (index / w)

/-- Reading from the palette image: Blocks inside the image can be read, and this gives the colors of `img`. -/
def Reads (k : Nat) (block : Int → Int → Tray → Mem α → Option (Mem α)) (w h : Int) (img : Int → Int → List α) : Prop :=
  ∀ (x y : Int) (t : Tray) (m : Mem α), 0 ≤ x → 0 ≤ t.w → x + t.w ≤ w → 0 ≤ y → 0 ≤ t.h → y + t.h ≤ h →
    ImageIter.Spec.Grid t.iter k ⟨0, 0, t.w, t.h⟩ m →
    ∃ m', block x y t m = some m' ∧ ImageReader.Spec.Shows t.iter k ⟨0, 0, t.w, t.h⟩ (fun i j => img (x + i) (y + j)) m' ∧
      ImageIter.Spec.SameElsewhere t.iter k ⟨0, 0, t.w, t.h⟩ m m'

/-- The colors of the palette. -/
def colors (img : Int → Int → List α) : Option (Int × Int) → List (List α)
  | none => []
  | some (w, h) => (List.range (numColors (some (w, h)))).map (entry img w)

/-- A color in the requested form: without conversion if the alpha component is asked for, or makes no difference. -/
def outOf [DecidableEq α] (s : Scheme α φ) (q : Request) (color : List α) : Out α φ :=
  if q.sameRepr && q.sameSpace && (q.hasAlpha || s.isFloat || color.getLast? == some s.max) then
    .exact (if q.hasAlpha then color else color.dropLast)
  else .converted (s.toFloat true color)

variable [DecidableEq α] [DecidableEq φ]

/-- The colors of the slots after an operation. -/
def after (s : Scheme α φ) (op : Op α φ) (slots : Slot → ColorSlot.Spec.Color α φ) : Slot → ColorSlot.Spec.Color α φ :=
  match op with
  | .slot op => ColorSlot.Spec.after s op slots
  | _ => slots

/-- The result of an operation, when the palette has the specified colors: The background color stands in for colors that are not
there. -/
def result (s : Scheme α φ) (palette : List (List α)) (op : Op α φ) (slots : Slot → ColorSlot.Spec.Color α φ) : Result α φ :=
  match op with
  | .slot op => .slot (ColorSlot.Spec.result s op slots)
  | .lookup index q =>
    match palette[index]? with
    | some color => .lookup (outOf s q color)
    | none => .lookup ((slots .background).get s q)
  | .entries => .entries palette
  | .entriesF => .entriesF (palette.map (s.toFloat true))

/-- The results of a sequence of operations. -/
def results (s : Scheme α φ) (palette : List (List α)) : List (Op α φ) → (Slot → ColorSlot.Spec.Color α φ) → List (Result α φ)
  | [], _ => []
  | op :: ops, slots => result s palette op slots :: results s palette ops (after s op slots)

/-- Colors that are assigned to slots must have the right number of components, and the palette is accessed as a whole only if there is
one. -/
def OpOk (k : Nat) (palette : Option (Int × Int)) : Op α φ → Prop
  | .slot op => ColorSlot.Spec.OpOk k op
  | .lookup _ _ => True
  | .entries => palette ≠ none
  | .entriesF => palette ≠ none

end Verif.Palette.Spec
