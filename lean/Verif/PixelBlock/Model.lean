import Verif.ImageIter.Model
import Verif.BitMedium.Model
/-!
Model of blocks of pixels, and of images that refer to pixels through trays: /repo/src/archon/image/block.hpp,
/repo/src/archon/image/tray_image.hpp, and /repo/src/archon/image/indexed_tray_image.hpp.

Memory is that of the model of pixel iterators (`ImageIter`). `I` is the number of value bits of `int`, and `none` as a result is
undefined behavior or a failed assertion. `D` is the number of value bits of `std::ptrdiff_t`, and `S` is that of `std::size_t`.
`n` is the number of channels of a block (the template parameter `N`). Failure of memory allocation is not modelled.
-/
namespace Verif.PixelBlock
open Verif.Integer Verif.PixelBox Verif.ImageIter

/-- `std::ptrdiff_t`. -/
def ptrdiffTy (D : Nat) : Ty := ⟨true, D⟩

/-- `std::size_t`. -/
def sizeTy (S : Nat) : Ty := ⟨false, S⟩

/-- The exceptions that are thrown. -/
inductive Error
  | overflow
  | bufferTooSmall
deriving DecidableEq, Repr

/-- `core::int_mul()`: integer.hpp:1647-1652. -/
def intMul (I : Nat) (L R : Ty) (l r : Int) : Option (Except Error Int) :=
  (tryMul I L R l r).map fun
    | some v => .ok v
    | none => .error .overflow

/-- `core::int_cast()`: integer.hpp:1205-1211. -/
def intCast (I : Nat) (T F : Ty) (x : Int) : Except Error Int :=
  match tryIntCast I T F x with
  | some v => .ok v
  | none => .error .overflow

/-- Continue after a function that may throw. -/
def andThen {α β : Type} (r : Option (Except Error α)) (f : α → Option (Except Error β)) : Option (Except Error β) :=
  match r with
  | none => none
  | some (.error e) => some (.error e)
  | some (.ok v) => f v

/-- `Block::determine_buffer_size()`: block.hpp:248-256. -/
def determineBufferSize (I D S n : Nat) (w h : Int) : Option (Except Error Int) :=
  andThen (intMul I (ptrdiffTy D) (intTy I) 1 n) fun s1 =>
  andThen (intMul I (ptrdiffTy D) (intTy I) s1 w) fun s2 =>
  andThen (intMul I (ptrdiffTy D) (intTy I) s2 h) fun s3 =>
  some (intCast I (sizeTy S) (ptrdiffTy D) s3)

/-- `Block::verify_buffer_size()`: block.hpp:238-245. -/
def verifyBufferSize (I D S n : Nat) (bufferSize w h : Int) : Option (Except Error Unit) :=
  andThen (determineBufferSize I D S n w h) fun minSize =>
  if bufferSize ≥ minSize then some (.ok ()) else some (.error .bufferTooSmall)

/-- `Block`: block.hpp:51-92. The buffer is at address `data`. -/
structure Block where
  w : Int
  h : Int
  data : Int
  bufferSize : Int
deriving DecidableEq, Repr

variable {α : Type}

/-- Memory after `std::make_unique<comp_type[]>(size)` that places the array at the specified address. The elements are
value-initialized, that is, they are zero. -/
def allocate (zero : α) (addr size : Int) (m : Mem α) : Mem α :=
  fun a => if addr ≤ a ∧ a < addr + size then some (some zero) else m a

/-- `Block(size)`: block.hpp:173-181. If an array is allocated, it is at the specified address. -/
def Block.make (I D S n : Nat) (zero : α) (addr w h : Int) (m : Mem α) : Option (Except Error (Block × Mem α)) :=
  andThen (determineBufferSize I D S n w h) fun size =>
  if size > 0 then some (.ok (⟨w, h, addr, size⟩, allocate zero addr size m))
  else some (.ok (⟨w, h, 0, size⟩, m))

/-- `Block(size, buffer)` and `Block(size, buffer, buffer_size)`: block.hpp:184-200. -/
def Block.wrap (I D S n : Nat) (w h data bufferSize : Int) : Option (Except Error Block) :=
  andThen (verifyBufferSize I D S n bufferSize w h) fun () => some (.ok ⟨w, h, data, bufferSize⟩)

/-- `Block::tray()` and `Block::make_tray()`: block.hpp:224-235, 259-267. -/
def Block.tray (I D n : Nat) (b : Block) : Option Tray := do
  let horzStride := cast (ptrdiffTy D) n
  let product ← arith I (ptrdiffTy D) (b.w * horzStride)
  let vertStride := cast (ptrdiffTy D) product
  some ⟨⟨b.data, horzStride, vertStride⟩, b.w, b.h⟩

/-- `PixelBlock::get_pixel()`: block.hpp:270-277. -/
def Block.getPixel (I D n : Nat) (b : Block) (x y : Int) (m : Mem α) : Option (List α) := do
  let t ← b.tray I D n
  (List.range n).mapM fun (c : Nat) => load m (t.iter.ptr x y + c)

/-- `IndexBlock::get_index()`: block.hpp:280-285, with `comp_repr_unpack()`: comp_repr.hpp:519-530. The components have type `T`, and the
bit width of the component representation is `N`. -/
def Block.getIndex (I D S : Nat) (T : Ty) (N : Nat) (b : Block) (x y : Int) (m : Mem Int) : Option Int := do
  let t ← b.tray I D 1
  let v ← load m (t.iter.ptr x y + 0)
  let u ← BitMedium.unpackInt I N T v
  some (cast (sizeTy S) u)

/-- `TrayImage` and `WritableTrayImage`: tray_image.hpp:56-139, 154-160, 223-230, and `IndexedTrayImage` and `WritableIndexedTrayImage`:
indexed_tray_image.hpp:62-132, 147-152, 211-216. `channels` is the number of channels of the color space. For images with indexed color,
there is one channel and no alpha channel, and the palette is not represented. -/
structure TrayImage where
  tray : Tray
  channels : Nat
  hasAlpha : Bool
deriving DecidableEq, Repr

/-- The number of components per pixel: tray_image.hpp:214, 285, 301, 310, indexed_tray_image.hpp:202, 268, 285, 294. -/
def TrayImage.numComps (img : TrayImage) : Nat := img.channels + (if img.hasAlpha then 1 else 0)

/-- `TrayImage(block, subbox)`: tray_image.hpp:170-174, 240-245, indexed_tray_image.hpp:162-167, 227-233. The number of channels of the
block is that of the pixel representation (pixel_repr.hpp:47). -/
def TrayImage.ofBlock (I D : Nat) (b : Block) (subbox : Box) (channels : Nat) (hasAlpha : Bool) : Option TrayImage := do
  let t ← b.tray I D (channels + (if hasAlpha then 1 else 0))
  let s ← t.subtray I subbox 0 0
  some ⟨s, channels, hasAlpha⟩

/-- `TrayImage(block)`: tray_image.hpp:163-167, 233-237, indexed_tray_image.hpp:155-159, 219-224. -/
def TrayImage.ofWholeBlock (I D : Nat) (b : Block) (channels : Nat) (hasAlpha : Bool) : Option TrayImage :=
  TrayImage.ofBlock I D b ⟨0, 0, b.w, b.h⟩ channels hasAlpha

/-- `TrayImage::get_size()`: tray_image.hpp:177-181, 248-252, indexed_tray_image.hpp:170-174, 236-240. -/
def TrayImage.size (img : TrayImage) : Int × Int := (img.tray.w, img.tray.h)

/-- `TrayImage::read()`: tray_image.hpp:210-216, 281-287, indexed_tray_image.hpp:198-204, 264-270. -/
def TrayImage.read (I : Nat) (img : TrayImage) (x y : Int) (t : Tray) (m : Mem α) : Option (Mem α) := do
  if ← (⟨x, y, t.w, t.h⟩ : Box).containedIn I ⟨0, 0, img.tray.w, img.tray.h⟩ then do
    let dx ← sub I x 0
    let dy ← sub I y 0
    t.copyFrom (img.tray.iter.plus dx dy) img.numComps m
  else none

/-- `WritableTrayImage::write()`: tray_image.hpp:297-303, indexed_tray_image.hpp:280-286. -/
def TrayImage.write (I : Nat) (img : TrayImage) (x y : Int) (t : Tray) (m : Mem α) : Option (Mem α) := do
  if ← (⟨x, y, t.w, t.h⟩ : Box).containedIn I ⟨0, 0, img.tray.w, img.tray.h⟩ then do
    let dx ← sub I x 0
    let dy ← sub I y 0
    t.copyTo (img.tray.iter.plus dx dy) img.numComps m
  else none

/-- `WritableTrayImage::fill()`: tray_image.hpp:306-312, indexed_tray_image.hpp:289-295. The color is outside the modelled memory. -/
def TrayImage.fill (I : Nat) (img : TrayImage) (area : Box) (color : List α) (m : Mem α) : Option (Mem α) := do
  if ← area.containedIn I ⟨0, 0, img.tray.w, img.tray.h⟩ then do
    let s ← img.tray.subtray I area 0 0
    s.fill I color img.numComps m
  else none

end Verif.PixelBlock
