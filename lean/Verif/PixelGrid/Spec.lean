import Verif.PixelLoops.Spec
/-!
Buffers in which every pixel is stored in `wpp` consecutive words. The pixels of an image are numbered row by row, without padding.
-/
namespace Verif.PixelGrid.Spec

/-- The contents of a buffer of `m` pixels. `words a i` is word number `i` of pixel `a`. -/
def encode {α : Type} (words : α → Nat → Int) (wpp m : Nat) (img : Nat → α) : List Int :=
  (List.range (m * wpp)).map fun j => words (img (j / wpp)) (j % wpp)

end Verif.PixelGrid.Spec
