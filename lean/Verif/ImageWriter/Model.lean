import Verif.ImageReader.Model
/-!
Model of the writing of pixels by image writers: /repo/src/archon/image/writer.hpp and /repo/src/archon/image/writer.cpp.

As in the model of image readers, `none` as a result of an operation is undefined behavior or a failed assertion, and `I` is the number of value
bits of `int`.

The virtual functions `WritableImage::write()` and `WritableImage::fill()` are modelled by their contracts: they are called for a box inside the
image (anything else is undefined behavior), use the number of components that the image has, and change the pixels of that box. Conversions of
single pixels, arithmetic on components, and the lookup of a color in the palette, are arbitrary functions. Workspaces are separate memory. The
forms of the colors of color slots are parameters (see `ColorSlot`). Failing memory allocation is not modelled. An image that is written to is not
at the same time the image that is the origin of the pixels.
-/
namespace Verif.ImageWriter
open Verif.Integer Verif.PixelBox Verif.ImageIter Verif.ImageReader

variable {α β φ P : Type}

/-- The parts of a writer, and of the attached image, that matter for writing. -/
structure Writer (α φ : Type) where
  /-- What is inherited from `Reader`. The pixels are not used; they are the state. -/
  reader : Reader α φ
  /-- `m_blending_enabled` -/
  blending : Bool
  /-- Whether `m_opacity` is 1, and multiplication by `m_opacity` -/
  unscaled : Bool
  scale : φ → φ
  /-- The expression of a component in `blend()` in terms of `alpha`, `a[i]`, and `b[i]`: blend.hpp:71-74. -/
  over : φ → φ → φ → φ
  /-- `pixel_convert()` from `float_` with alpha to the representation of the image: pixel_convert.hpp. -/
  fromFloat : List φ → List α
  /-- `do_reverse_palette_lookup()` (writer.hpp:714-734) followed by `comp_repr_pack()`, which is exact for indexes of colors: writer.cpp:322-326. -/
  lookup : List φ → Nat

/-- The pixels of the image and everything else that matters for reading. -/
def Writer.at (wr : Writer α φ) (st : Pixels α) : Reader α φ := { wr.reader with pixels := st }

/-! ### Writing to the image -/

/-- `WritableImage::write()`: the contract. The size of the image is `(W, H)`, and `pixel` is how a pixel is read from the tray. -/
def imageWrite (W H x y w h : Int) (pixel : Nat → Nat → Option P) (img : Int → Int → P) : Option (Int → Int → P) :=
  if (0 ≤ x ∧ x + w ≤ W ∧ 0 ≤ y ∧ y + h ≤ H) ∧ ∀ i < w.toNat, ∀ j < h.toNat, (pixel i j).isSome then
    some (fun px py => if (x ≤ px ∧ px < x + w) ∧ (y ≤ py ∧ py < y + h) then (pixel (px - x).toNat (py - y).toNat).getD (img px py) else img px py)
  else none

/-- `WritableImage::fill()`: the contract. -/
def imageFill (W H : Int) (box : Box) (color : P) (img : Int → Int → P) : Option (Int → Int → P) :=
  imageWrite W H box.x box.y box.w box.h (fun _ _ => some color) img

/-- How the image is read and written in terms of representation `float_`. -/
structure Access (α φ : Type) where
  read : Pixels α → Int → Int → Tray → Mem φ → Option (Mem φ)
  write : Int → Int → Tray → Mem φ → Pixels α → Option (Pixels α)

/-- The tray of a workspace: impl/workspace.hpp:198-207. -/
def wsTray (I : Nat) (k : Nat) (w h : Int) : Option Tray := do
  let stride ← arith I (intTy I) (k * w)
  some ⟨⟨0, k, stride⟩, w, h⟩

/-- The lookup of colors in `Writer::write()`: writer.cpp:312-329. -/
def writeIndexed (I : Nat) (wr : Writer α φ) (x y : Int) (t : Tray) (ws : Mem φ) (index : Int → Int → Nat) : Option (Int → Int → Nat) := do
  let t2 ← wsTray I 1 t.w t.h
  let ws2 ← convert2 (fun p => [wr.lookup p]) ws t wr.reader.numChannelsExt t2.iter 1 (workspace (1 * t.w * t.h))
  imageWrite wr.reader.w wr.reader.h x y t.w t.h (fun i j => load ws2 (t2.iter.ptr i j)) index

/-- `Writer::write()` when the representation of the image is not `float_`: writer.cpp:287-330. -/
def Writer.write (I : Nat) (wr : Writer α φ) (x y : Int) (t : Tray) (ws : Mem φ) : Pixels α → Option (Pixels α)
  | .direct color => do
    let n := wr.reader.numChannels
    let t2 ← wsTray I n t.w t.h
    let ws2 ← convert2 wr.fromFloat ws t wr.reader.numChannelsExt t2.iter n (workspace (n * t.w * t.h))
    let color ← imageWrite wr.reader.w wr.reader.h x y t.w t.h (pixelsOf ws2 t2.iter n) color
    some (.direct color)
  | .indexed index => do
    let index ← writeIndexed I wr x y t ws index
    some (.indexed index)

/-- `Writer::write()` when the representation of the image is `float_`: writer.cpp:287-330. -/
def Writer.writeN (I : Nat) (wr : Writer φ φ) (x y : Int) (t : Tray) (ws : Mem φ) : Pixels φ → Option (Pixels φ)
  | .direct color => do
    let color ← imageWrite wr.reader.w wr.reader.h x y t.w t.h (pixelsOf ws t.iter wr.reader.numChannels) color
    some (.direct color)
  | .indexed index => do
    let index ← writeIndexed I wr x y t ws index
    some (.indexed index)

/-- `Reader::read()` and `Writer::write()` when the representation of the image is not `float_`. -/
def Writer.access (I : Nat) (wr : Writer α φ) : Access α φ := ⟨fun st => (wr.at st).readF, wr.write I⟩

/-- The same when the representation of the image is `float_`. -/
def Writer.accessN (I : Nat) (wr : Writer φ φ) : Access φ φ := ⟨fun st => (wr.at st).read true, wr.writeN I⟩

/-! ### Blending -/

/-- The loop of `blend()`: blend.hpp:73-74. The origin on the left-hand side is in `ws` at `left`. The other one, and the result, are in `m` at
`right`. -/
def blendLoop (over : φ → φ → φ → φ) (alpha : φ) (ws : Mem φ) (left right : Int) : (n i : Nat) → Mem φ → Option (Mem φ)
  | 0, _, m => some m
  | n + 1, i, m => do
    let a ← load ws (left + i)
    let b ← load m (right + i)
    let m ← store m (right + i) (over alpha a b)
    blendLoop over alpha ws left right n (i + 1) m

/-- `blend()`: blend.hpp:66-76. -/
def blend (over : φ → φ → φ → φ) (ws : Mem φ) (left right : Int) (n : Nat) (m : Mem φ) : Option (Mem φ) := do
  let alpha ← load ws (left + (n - 1 : Nat))
  blendLoop over alpha ws left right n 0 m

/-- `Writer::write_b()`: writer.cpp:256-284. -/
def Writer.writeB (I : Nat) (wr : Writer α φ) (acc : Access α φ) (x y : Int) (t : Tray) (ws : Mem φ) (st : Pixels α) : Option (Pixels α) :=
  if !wr.blending then acc.write x y t ws st
  else do
    let k := wr.reader.numChannelsExt
    let t2 ← wsTray I k t.w t.h
    let m ← acc.read st x y t2 (workspace (k * t.w * t.h))
    let m ← loopY (fun i j => blend wr.over ws (t.iter.ptr i j) (t2.iter.ptr i j) k) t.w.toNat t.h.toNat 0 m
    acc.write x y t2 m st

/-- The loop that applies the opacity to a workspace: writer.hpp:647-649, writer.cpp:200-202. -/
def scaleLoop (scale : φ → φ) : (n i : Nat) → Mem φ → Option (Mem φ)
  | 0, _, m => some m
  | n + 1, i, m => do
    let v ← load m i
    let m ← store m i (scale v)
    scaleLoop scale n (i + 1) m

/-- Application of the opacity, if it is not 1, and then `Writer::write_b()`: writer.hpp:646-651, writer.cpp:199-204. -/
def Writer.finish (I : Nat) (wr : Writer α φ) (acc : Access α φ) (b : Box) (t : Tray) (ws : Mem φ) (st : Pixels α) : Option (Pixels α) := do
  let ws ← (if wr.unscaled then some ws else scaleLoop wr.scale (wr.reader.numChannelsExt * b.w * b.h).toNat 0 ws)
  wr.writeB I acc b.x b.y t ws st

/-- Calling of a function for each of a list of boxes: the lambda expressions that are passed to `subdivide()`. -/
def forEach (f : Box → P → Option P) : List Box → P → Option P
  | [], st => some st
  | b :: bs, st => do
    let st ← f b st
    forEach f bs st

/-- `boundary.clip(box)`: writer.hpp:588-591 and elsewhere. The result inside is `none` if there is no overlap. -/
def overlap (I : Nat) (W H : Int) (box : Box) : Option (Option Box) := do
  let (some', b) ← (⟨0, 0, W, H⟩ : Box).clip I box
  some (if some' then some b else none)

/-! ### Blocks -/

/-- What is known about the pixels that are written: their representation is that of the image (`sameRepr`), and is `float_` (`isFloat`), and
their color space is that of the image (`sameSpace`), and whether they have alpha components. -/
structure Format where
  sameRepr : Bool
  isFloat : Bool
  sameSpace : Bool
  hasAlpha : Bool
deriving DecidableEq, Repr

/-- Whether an image has indexed color. -/
def isIndexed : Pixels α → Bool
  | .direct _ => false
  | .indexed _ => true

/-- `lossless` in `Writer::put_block_a()` and `Writer::put_image_a()`: writer.hpp:593-603, writer.cpp:156-166. -/
def Writer.lossless (wr : Writer α φ) (q : Format) (st : Pixels α) : Bool :=
  let removeAlpha := q.hasAlpha && !wr.reader.hasAlpha
  let blending := wr.blending && (q.hasAlpha || !wr.unscaled)
  q.sameRepr && q.sameSpace && (!removeAlpha || q.isFloat) && wr.unscaled && !blending && !isIndexed st

/-- `Writer::put_block_a()` in the lossless cases (alternatives 1 and 2): writer.hpp:582-632. The block is in the tray `tray` of memory `m`, and
`hasAlpha` is whether its pixels have alpha components. -/
def Writer.putBlock (I : Nat) (wr : Writer α φ) (hasAlpha : Bool) (x y : Int) (tray : Tray) (m : Mem α) (st : Pixels α) : Option (Pixels α) := do
  match ← overlap I wr.reader.w wr.reader.h ⟨x, y, tray.w, tray.h⟩ with
  | none => some st
  | some box =>
    match st with
    | .indexed _ => none
    | .direct color => do
      let k := wr.reader.numChannelsExt
      let color ← (if !(!hasAlpha && wr.reader.hasAlpha) then do
        let t ← tray.subtray I box x y
        imageWrite wr.reader.w wr.reader.h box.x box.y t.w t.h (pixelsOf m t.iter wr.reader.numChannels) color
      else do
        let boxes ← subdivide I box
        forEach (fun b color => do
          let t ← tray.subtray I b x y
          let t2 ← wsTray I k b.w b.h
          let ws ← convert2 (fun p => p ++ [wr.reader.max]) m ⟨t.iter, b.w, b.h⟩ (k - 1) t2.iter k (workspace (k * b.w * b.h))
          imageWrite wr.reader.w wr.reader.h b.x b.y b.w b.h (pixelsOf ws t2.iter wr.reader.numChannels) color) boxes color)
      some (.direct color)

/-- `Writer::put_block_a()` in the other case (alternative 3): writer.hpp:582-591, 612-614, 634-653. The pixels of the block have `c` components, and `conv`
converts them to the color space of the image, and to `float_` with alpha. -/
def Writer.putBlockConv (I : Nat) (wr : Writer α φ) (acc : Access α φ) (conv : List β → List φ) (c : Nat) (x y : Int) (tray : Tray) (m : Mem β)
    (st : Pixels α) : Option (Pixels α) := do
  match ← overlap I wr.reader.w wr.reader.h ⟨x, y, tray.w, tray.h⟩ with
  | none => some st
  | some box => do
    let k := wr.reader.numChannelsExt
    let boxes ← subdivide I box
    forEach (fun b st => do
      let t ← tray.subtray I b x y
      let t2 ← wsTray I k b.w b.h
      let ws ← convert2 conv m t c t2.iter k (workspace (k * b.w * b.h))
      wr.finish I acc b t2 ws st) boxes st

/-- `Writer::put_block_a()` when the representation of the block is that of the image: writer.hpp:582-654. -/
def Writer.putBlockA (I : Nat) (wr : Writer α φ) (acc : Access α φ) (q : Format) (conv : List α → List φ) (c : Nat) (x y : Int) (tray : Tray) (m : Mem α)
    (st : Pixels α) : Option (Pixels α) :=
  if wr.lossless q st then wr.putBlock I q.hasAlpha x y tray m st else wr.putBlockConv I acc conv c x y tray m st

/-- `Writer::put_pixel()`: writer.hpp:535-543. -/
def pixelTray (c : Nat) : Tray := ⟨⟨0, c, c⟩, 1, 1⟩

/-- `Writer::put_block_mask()`: writer.cpp:210-253. The components of the foreground and background color are `fg` and `bg`, `level` is
`alpha_comp_to_float()`, and `mix` is the expression of a component in terms of `mask`, `fg_alpha`, `fg[i]`, and `bg[i]`: writer.cpp:241-245. -/
def Writer.putMask (I : Nat) (wr : Writer α φ) (acc : Access α φ) (level : β → φ) (mix : φ → φ → φ → φ → φ) (fg bg : List φ) (x y : Int)
    (tray : Tray) (m : Mem β) (st : Pixels α) : Option (Pixels α) := do
  match ← overlap I wr.reader.w wr.reader.h ⟨x, y, tray.w, tray.h⟩ with
  | none => some st
  | some box => do
    let k := wr.reader.numChannelsExt
    let fgAlpha ← fg[k - 1]?
    let boxes ← subdivide I box
    forEach (fun b st => do
      let t ← tray.subtray I b x y
      let t2 ← wsTray I k b.w b.h
      let ws ← convert2 (fun p => (p.head?.map fun v => List.zipWith (mix (level v) fgAlpha) fg bg).getD []) m t 1 t2.iter k (workspace (k * b.w * b.h))
      wr.writeB I acc b.x b.y t2 ws st) boxes st

/-! ### Images -/

/-- The position in the origin image of a sub-box of the destination: writer.cpp:171-172 and 188-189. The box in the origin image is `box`. -/
def originPos (I : Nat) (x y : Int) (box b : Box) : Option (Int × Int) := do
  let dx ← sub I b.x x
  let dy ← sub I b.y y
  let ox ← add I box.x dx
  let oy ← add I box.y dy
  some (ox, oy)

/-- `Writer::put_image_a()` in the lossless case: writer.cpp:149-185. -/
def Writer.putImage (I : Nat) (wr : Writer α φ) (origin : Reader α φ) (x y : Int) (box : Box) (st : Pixels α) : Option (Pixels α) := do
  match ← overlap I wr.reader.w wr.reader.h ⟨x, y, box.w, box.h⟩ with
  | none => some st
  | some destin =>
    match st with
    | .indexed _ => none
    | .direct color => do
      let boxes ← subdivide I destin
      let color ← forEach (fun b color => do
        let (ox, oy) ← originPos I x y box b
        let n := wr.reader.numChannels + (origin.hasAlpha && !wr.reader.hasAlpha).toNat
        let t2 ← wsTray I n b.w b.h
        let ws ← origin.readN I wr.reader.hasAlpha ox oy t2 (workspace (n * b.w * b.h))
        imageWrite wr.reader.w wr.reader.h b.x b.y b.w b.h (pixelsOf ws t2.iter wr.reader.numChannels) color) boxes color
      some (.direct color)

/-- `Writer::put_image_a()` in the other case: writer.cpp:149-154, 187-207. `readG` is `Reader::read_g()` of the reader of the origin image for
representation `float_`, the color space of the destination image, and with alpha. -/
def Writer.putImageConv (I : Nat) (wr : Writer α φ) (acc : Access α φ) (readG : Int → Int → Tray → Mem φ → Option (Mem φ)) (x y : Int) (box : Box)
    (st : Pixels α) : Option (Pixels α) := do
  match ← overlap I wr.reader.w wr.reader.h ⟨x, y, box.w, box.h⟩ with
  | none => some st
  | some destin => do
    let k := wr.reader.numChannelsExt
    let boxes ← subdivide I destin
    forEach (fun b st => do
      let (ox, oy) ← originPos I x y box b
      let t2 ← wsTray I k b.w b.h
      let ws ← readG ox oy t2 (workspace (k * b.w * b.h))
      wr.finish I acc b t2 ws st) boxes st

/-- `Writer::put_image_a()` when the representation of the origin image is that of the destination image: writer.cpp:149-207. -/
def Writer.putImageA (I : Nat) (wr : Writer α φ) (acc : Access α φ) (q : Format) (origin : Reader α φ)
    (readG : Int → Int → Tray → Mem φ → Option (Mem φ)) (x y : Int) (box : Box) (st : Pixels α) : Option (Pixels α) :=
  if wr.lossless q st then wr.putImage I origin x y box st else wr.putImageConv I acc readG x y box st

/-! ### Filling -/

/-- The forms of a color slot, `is_solid_color()`, and the number of components to which `comp_repr_convert()` is applied: see `ColorSlot`. -/
structure Slot (α φ : Type) where
  solid : Bool
  r : List α
  u : List α
  f : List φ

/-- `Writer::fill()` in the cases without blending: writer.cpp:58-115. `convert` is `comp_repr_convert()` from `float_` to the representation of the
image. -/
def Writer.fillPlain (wr : Writer α φ) (convert : List φ → List α) (slot : Slot α φ) (box : Box) : Pixels α → Option (Pixels α)
  | .direct color => do
    let c := if wr.unscaled then (if !wr.reader.hasAlpha then slot.r else slot.u) else convert ((slot.f.take wr.reader.numChannels).map wr.scale)
    let color ← imageFill wr.reader.w wr.reader.h box (c.take wr.reader.numChannels) color
    some (.direct color)
  | .indexed index => do
    let index ← imageFill wr.reader.w wr.reader.h box (wr.lookup (slot.f.map wr.scale)) index
    some (.indexed index)

/-- The loop of `blend()` where the left-hand side is separate from the modelled memory. -/
def blendColorLoop (over : φ → φ → φ → φ) (alpha : φ) (color : List φ) (right : Int) : (n i : Nat) → Mem φ → Option (Mem φ)
  | 0, _, m => some m
  | n + 1, i, m => do
    let a ← color[i]?
    let b ← load m (right + i)
    let m ← store m (right + i) (over alpha a b)
    blendColorLoop over alpha color right n (i + 1) m

/-- The function that is called for each sub-box in `Writer::fill()`: writer.cpp:128-144. -/
def Writer.fillBox (I : Nat) (wr : Writer α φ) (acc : Access α φ) (color : List φ) (b : Box) (st : Pixels α) : Option (Pixels α) := do
  let k := wr.reader.numChannelsExt
  let t2 ← wsTray I k b.w b.h
  let m ← acc.read st b.x b.y t2 (workspace (k * b.w * b.h))
  let alpha ← color[k - 1]?
  let m ← loopY (fun i j => blendColorLoop wr.over alpha color (t2.iter.ptr i j) k 0) b.w.toNat b.h.toNat 0 m
  acc.write b.x b.y t2 m st

/-- `Writer::fill()`: writer.cpp:48-146. -/
def Writer.fill (I : Nat) (wr : Writer α φ) (acc : Access α φ) (convert : List φ → List α) (slot : Slot α φ) (area : Box) (st : Pixels α) :
    Option (Pixels α) := do
  match ← overlap I wr.reader.w wr.reader.h area with
  | none => some st
  | some box =>
    if !wr.blending || (slot.solid && wr.unscaled) then wr.fillPlain convert slot box st
    else do
      let boxes ← subdivide I box
      forEach (wr.fillBox I acc (slot.f.map wr.scale)) boxes st

end Verif.ImageWriter
