import Verif.ImageIter.Model
import Verif.Integer.Model2
/-!
Model of the reading of blocks of pixels by image readers: /repo/src/archon/image/reader.hpp and /repo/src/archon/image/reader.cpp.

As in the model of pixel iterators, `none` as a result of an operation is undefined behavior or a failed assertion, and `I` is the number of
value bits of `int`.

The virtual function `Image::read()` is modelled by its contract: it is called for a box inside the image (anything else is undefined
behavior), and then stores the pixels of that box in the tray. Conversions of single pixels are arbitrary functions. Workspaces are
separate memory, and the pixels in them are modelled as functions of their positions. The contents of the slot of the background color and
of the palette cache are parameters. Failing memory allocation is not modelled.
-/
namespace Verif.ImageReader
open Verif.Integer Verif.PixelBox Verif.ImageIter

variable {α φ γ : Type}

/-- `Reader::FalloffMode`: reader.hpp:725-729. -/
inductive Mode where
  | background
  | edge
  | repeat
deriving DecidableEq, Repr

/-! ### Adjustment of one coordinate -/

/-- The case of falloff mode `background` in `Reader::adjust()`: reader.cpp:75-105. The result inside is `none` if the function returns
`false`, otherwise the new values of `read_pos`, `progen_pos`, and `progen_size`. -/
def adjustBackground (I : Nat) (imageSize readPos readSize : Int) : Option (Option (Int × Int × Int)) :=
  if readPos ≥ 0 then
    if readPos < imageSize then do
      let d ← sub I imageSize readPos
      if readSize ≤ d then some (some (readPos, readPos, readSize))
      else some (some (readPos, readPos, d))
    else some none
  else do
    let d ← sub I 0 readSize
    if readPos > d then do
      let e ← add I readPos readSize
      if e ≤ imageSize then some (some (readPos, 0, e))
      else some (some (readPos, 0, imageSize))
    else some none

/-- The case of falloff mode `edge` in `Reader::adjust()`: reader.cpp:106-145. -/
def adjustEdge (I : Nat) (imageSize readPos readSize : Int) : Option (Option (Int × Int × Int)) :=
  if readPos ≥ 0 then
    if readPos < imageSize then do
      let d ← sub I imageSize readPos
      if readSize ≤ d then some (some (readPos, readPos, readSize))
      else some (some (readPos, readPos, d))
    else do
      let readPos ← sub I imageSize 1
      some (some (readPos, readPos, 1))
  else do
    let d ← sub I 0 readSize
    if readPos > d then do
      let e ← add I readPos readSize
      if e ≤ imageSize then some (some (readPos, 0, e))
      else some (some (readPos, 0, imageSize))
    else do
      let readPos ← sub I 1 readSize
      some (some (readPos, 0, 1))

/-- The case of falloff mode `repeat` in `Reader::adjust()`: reader.cpp:146-182. -/
def adjustRepeat (I : Nat) (imageSize readPos readSize : Int) : Option (Option (Int × Int × Int)) := do
  let rem ← periodicMod I (intTy I) (intTy I) readPos imageSize
  let d ← sub I imageSize rem
  if readSize ≤ d then some (some (rem, rem, readSize))
  else do
    let e ← sub I readSize d
    if e ≥ imageSize then do
      let readPos ← sub I rem imageSize
      some (some (readPos, 0, imageSize))
    else some (some (rem, rem, min readSize imageSize))

/-- `Reader::adjust()`: reader.cpp:69-186. -/
def adjust (I : Nat) (mode : Mode) (imageSize readPos readSize : Int) : Option (Option (Int × Int × Int)) :=
  if imageSize > 0 ∧ readSize > 0 then
    match mode with
    | .background => adjustBackground I imageSize readPos readSize
    | .edge => adjustEdge I imageSize readPos readSize
    | .repeat => adjustRepeat I imageSize readPos readSize
  else none

/-! ### Expansion -/

/-- The lambda expression `bgcolor_fill` in `Reader::read_e()`: reader.hpp:1332-1347. -/
def bgFill (I : Nat) (tray : Tray) (bg : List α) (n : Nat) (x y w h : Int) (m : Mem α) : Option (Mem α) := do
  let t ← tray.subtray I ⟨x, y, w, h⟩ 0 0
  t.fill I bg n m

/-- `tray.subtray({ rel_pos, size }).copy_from(iter, num_channels)`, as in several places in `Reader::read_e()`. -/
def copyPart (I : Nat) (tray : Tray) (iter : Iter) (n : Nat) (x y w h : Int) (m : Mem α) : Option (Mem α) := do
  let t ← tray.subtray I ⟨x, y, w, h⟩ 0 0
  t.copyFrom iter n m

/-- Reading of the four quadrants of the progenitor sub-box in `Reader::read_e()`: reader.hpp:1370-1395. `read` is `Reader::read()`. The
size of the image is `(W, H)`, the position of the read box is `(rx, ry)`, and the progenitor sub-box is `q`. -/
def readQuads (I : Nat) (read : Int → Int → Tray → Mem α → Option (Mem α)) (tray : Tray) (W H rx ry : Int) (q : Box) (m : Mem α) :
    Option (Mem α) := do
  let a ← sub I W q.x
  let b ← sub I H q.y
  let mw := min a q.w
  let mh := min b q.h
  let t ← tray.subtray I ⟨q.x, q.y, mw, mh⟩ rx ry
  let m ← read q.x q.y t m
  let m ← (if mw < q.w then do
    let w ← sub I q.w mw
    let x ← add I 0 W
    let y ← add I q.y 0
    let t ← tray.subtray I ⟨x, y, w, mh⟩ rx ry
    read 0 q.y t m
  else some m)
  let m ← (if mh < q.h then do
    let h ← sub I q.h mh
    let x ← add I q.x 0
    let y ← add I 0 H
    let t ← tray.subtray I ⟨x, y, mw, h⟩ rx ry
    read q.x 0 t m
  else some m)
  if mw < q.w ∧ mh < q.h then do
    let w ← sub I q.w mw
    let h ← sub I q.h mh
    let x ← add I 0 W
    let y ← add I 0 H
    let t ← tray.subtray I ⟨x, y, w, h⟩ rx ry
    read 0 0 t m
  else some m

/-- The loops of the horizontal expansion for falloff mode `edge`: reader.hpp:1422-1423 and 1430-1431. The number of remaining rounds is
`k`, and the position is `(x, y)`. -/
def edgeLoopX (I : Nat) (tray : Tray) (iter : Iter) (n : Nat) (x y h : Int) : (k i : Nat) → Mem α → Option (Mem α)
  | 0, _, m => some m
  | k + 1, i, m => do
    let x2 ← add I x i
    let y2 ← add I y 0
    let m ← copyPart I tray iter n x2 y2 1 h m
    edgeLoopX I tray iter n x y h k (i + 1) m

/-- The loop of the horizontal expansion for falloff mode `repeat`: reader.hpp:1446-1449. The result includes the final value of
`rel_pos.x`. It is `none` also if the bound on the number of rounds is reached; that does not happen, as is shown. -/
def repeatLoopX (I : Nat) (tray : Tray) (iter : Iter) (n : Nat) (width pw ph y : Int) : (fuel : Nat) → Int → Mem α → Option (Int × Mem α)
  | 0, _, _ => none
  | fuel + 1, x, m => do
    let d ← sub I width x
    if d ≥ pw then do
      let m ← copyPart I tray iter n x y pw ph m
      let x ← add I x pw
      repeatLoopX I tray iter n width pw ph y fuel x m
    else some (x, m)

/-- The horizontal expansion in `Reader::read_e()`: reader.hpp:1397-1454. The size of the progenitor sub-box is `(pw, ph)`, and its position
relative to the read box is `(dx, dy)`, which is `diff` as well as `rel_pos_1`. `x2` is `rel_pos_2.x`. -/
def expandHorz (I : Nat) (mode : Mode) (tray : Tray) (bg : List α) (n : Nat) (W width dx dy pw ph x2 : Int) (m : Mem α) : Option (Mem α) :=
  match mode with
  | .background => do
    let m ← (if dx > 0 then bgFill I tray bg n 0 dy dx ph m else some m)
    if width > x2 then do
      let w ← sub I width x2
      bgFill I tray bg n x2 dy w ph m
    else some m
  | .edge => do
    let m ← (if dx > 0 then
      if pw ≥ 1 then edgeLoopX I tray (tray.iter.plus dx dy) n 0 dy ph dx.toNat 0 m else none
    else some m)
    if width > x2 then
      if pw ≥ 1 then do
        let a ← sub I pw 1
        let _ ← sub I ph 1
        let x ← add I dx a
        let y ← add I dy 0
        let w ← sub I width x2
        edgeLoopX I tray (tray.iter.plus x y) n x2 dy ph w.toNat 0 m
      else none
    else some m
  | .repeat => do
    let m ← (if dx > 0 then
      if pw = W then copyPart I tray (tray.iter.plus pw dy) n 0 dy dx ph m else none
    else some m)
    if width > x2 then
      if pw = W then do
        let (x, m) ← repeatLoopX I tray (tray.iter.plus dx dy) n width pw ph dy (width.toNat + 1) x2 m
        let w ← sub I width x
        copyPart I tray (tray.iter.plus dx dy) n x dy w ph m
      else none
    else some m

/-- The loops of the vertical expansion for falloff mode `edge`: reader.hpp:1477-1478 and 1485-1486. -/
def edgeLoopY (I : Nat) (tray : Tray) (iter : Iter) (n : Nat) (x y w : Int) : (k i : Nat) → Mem α → Option (Mem α)
  | 0, _, m => some m
  | k + 1, i, m => do
    let x2 ← add I x 0
    let y2 ← add I y i
    let m ← copyPart I tray iter n x2 y2 w 1 m
    edgeLoopY I tray iter n x y w k (i + 1) m

/-- The loop of the vertical expansion for falloff mode `repeat`: reader.hpp:1502-1505. The result includes the final value of
`rel_pos.y`. -/
def repeatLoopY (I : Nat) (tray : Tray) (iter : Iter) (n : Nat) (height pw ph x : Int) : (fuel : Nat) → Int → Mem α → Option (Int × Mem α)
  | 0, _, _ => none
  | fuel + 1, y, m => do
    let d ← sub I height y
    if d ≥ ph then do
      let m ← copyPart I tray iter n x y pw ph m
      let y ← add I y ph
      repeatLoopY I tray iter n height pw ph x fuel y m
    else some (y, m)

/-- The vertical expansion in `Reader::read_e()`: reader.hpp:1456-1510. The size of the read box is `(width, height)`. `y2` is
`rel_pos_2.y`. -/
def expandVert (I : Nat) (mode : Mode) (tray : Tray) (bg : List α) (n : Nat) (H width height dx dy pw ph y2 : Int) (m : Mem α) :
    Option (Mem α) :=
  match mode with
  | .background => do
    let m ← (if dy > 0 then bgFill I tray bg n 0 0 width dy m else some m)
    if height > y2 then do
      let h ← sub I height y2
      bgFill I tray bg n 0 y2 width h m
    else some m
  | .edge => do
    let m ← (if dy > 0 then
      if ph ≥ 1 then edgeLoopY I tray (tray.iter.plus 0 dy) n 0 0 width dy.toNat 0 m else none
    else some m)
    if height > y2 then
      if ph ≥ 1 then do
        let x ← add I dx pw
        let y ← add I dy ph
        let _ ← sub I x 1
        let y ← sub I y 1
        let h ← sub I height y2
        edgeLoopY I tray (tray.iter.plus 0 y) n 0 y2 width h.toNat 0 m
      else none
    else some m
  | .repeat => do
    let m ← (if dy > 0 then
      if ph = H then copyPart I tray (tray.iter.plus 0 ph) n 0 0 width dy m else none
    else some m)
    if height > y2 then
      if ph = H then do
        let (y, m) ← repeatLoopY I tray (tray.iter.plus 0 dy) n height width ph 0 (height.toNat + 1) y2 m
        let h ← sub I height y
        copyPart I tray (tray.iter.plus 0 dy) n 0 y width h m
      else none
    else some m

/-- The assertions about the progenitor sub-box in `Reader::read_e()`: reader.hpp:1362-1368. -/
def progenOk (I : Nat) (W H : Int) (readBox q : Box) : Option Bool := do
  let a ← (⟨q.x, q.y, 0, 0⟩ : Box).containedIn I ⟨0, 0, W, H⟩
  let b := !(q.w = 0 ∨ q.h = 0)
  let c := decide (q.w ≤ W ∧ q.h ≤ H)
  let d ← readBox.contains I q
  some (a && b && c && d)

/-- `Reader::read_e()`: reader.hpp:1243-1516. `read` is the instance of `Reader::read()`, `bg` is the color used by `bgcolor_fill`, and `n`
is the number of channels. -/
def readE (I : Nat) (read : Int → Int → Tray → Mem α → Option (Mem α)) (bg : List α) (n : Nat) (W H : Int) (horz vert : Mode)
    (x y : Int) (tray : Tray) (m : Mem α) : Option (Mem α) := do
  if ← (⟨x, y, tray.w, tray.h⟩ : Box).containedIn I ⟨0, 0, W, H⟩ then read x y tray m
  else if tray.isEmpty then some m
  else if W = 0 ∨ H = 0 then bgFill I tray bg n 0 0 tray.w tray.h m
  else
    match ← adjust I horz W x tray.w with
    | none => bgFill I tray bg n 0 0 tray.w tray.h m
    | some (rx, qx, qw) =>
      match ← adjust I vert H y tray.h with
      | none => bgFill I tray bg n 0 0 tray.w tray.h m
      | some (ry, qy, qh) =>
        if ← progenOk I W H ⟨rx, ry, tray.w, tray.h⟩ ⟨qx, qy, qw, qh⟩ then do
          let m ← readQuads I read tray W H rx ry ⟨qx, qy, qw, qh⟩ m
          let dx ← sub I qx rx
          let dy ← sub I qy ry
          let x2 ← add I dx qw
          let y2 ← add I dy qh
          let m ← expandHorz I horz tray bg n W tray.w dx dy qw qh x2 m
          expandVert I vert tray bg n H tray.w tray.h dx dy qw qh y2 m
        else none

/-! ### Subdivision -/

/-- The inner loop of `Reader::subdivide()` for wide boxes: reader.hpp:1183-1192. The results are the boxes for which `func` is called. -/
def subdivideRow (I : Nat) (box : Box) (y h maxW : Int) : (fuel : Nat) → Int → Option (List Box)
  | 0, _ => none
  | fuel + 1, x => do
    let remainingW ← sub I box.w x
    let w := min remainingW maxW
    let bx ← add I box.x x
    let by' ← add I box.y y
    let x ← add I x w
    if x < box.w then do
      let rest ← subdivideRow I box y h maxW fuel x
      some (⟨bx, by', w, h⟩ :: rest)
    else some [⟨bx, by', w, h⟩]

/-- The outer loop of `Reader::subdivide()` for wide boxes: reader.hpp:1167-1194. -/
def subdivideRows (I : Nat) (box : Box) : (fuel : Nat) → Int → Option (List Box)
  | 0, _ => none
  | fuel + 1, y => do
    let remainingH ← sub I box.h y
    if remainingH ≥ 64 then do
      let row ← subdivideRow I box y 64 64 (box.w.toNat + 1) 0
      let y ← add I y 64
      let rest ← subdivideRows I box fuel y
      some (row ++ rest)
    else if remainingH = 0 then some []
    else do
      let row ← subdivideRow I box y remainingH (Int.tdiv 4096 remainingH) (box.w.toNat + 1) 0
      let y ← add I y remainingH
      let rest ← subdivideRows I box fuel y
      some (row ++ rest)

/-- The loop of `Reader::subdivide()` for narrow boxes: reader.hpp:1197-1209. -/
def subdivideColumn (I : Nat) (box : Box) (maxH : Int) : (fuel : Nat) → Int → Option (List Box)
  | 0, _ => none
  | fuel + 1, y => do
    let remainingH ← sub I box.h y
    let h := min remainingH maxH
    let bx ← add I box.x 0
    let by' ← add I box.y y
    let y ← add I y h
    if y < box.h then do
      let rest ← subdivideColumn I box maxH fuel y
      some (⟨bx, by', box.w, h⟩ :: rest)
    else some [⟨bx, by', box.w, h⟩]

/-- `Reader::subdivide()`: reader.hpp:1160-1211. The results are the boxes for which `func` is called, in that order. -/
def subdivide (I : Nat) (box : Box) : Option (List Box) := do
  if ← box.isValid I then
    if box.w ≥ 64 then subdivideRows I box (box.h.toNat + 1) 0
    else if box.w > 0 then subdivideColumn I box (Int.tdiv 4096 box.w) (box.h.toNat + 1) 0
    else some []
  else none

/-! ### Reading -/

/-- Storing of a pixel at each position of a tray: the loops of `Image::read()`, `Reader::convert_1()` (reader.hpp:1879-1891), and
`Reader::convert_2()` (reader.hpp:1893-1915), and of the lookup of colors in `Reader::read()` (reader.hpp:1591-1601). -/
def writePixels (pixel : Nat → Nat → List α) (iter : Iter) (w h : Int) (n : Nat) (m : Mem α) : Option (Mem α) :=
  loopY (fun x y => put (pixel x y) (iter.ptr x y) n 0) w.toNat h.toNat 0 m

/-- The color or the color index of each pixel of an image. -/
inductive Pixels (α : Type) where
  | direct (color : Int → Int → List α)
  | indexed (index : Int → Int → Nat)

/-- The parts of a reader, and of the attached image, that matter for reading. -/
structure Reader (α φ : Type) where
  /-- `m_image_size`, `m_horz_falloff_mode`, `m_vert_falloff_mode` -/
  w : Int
  h : Int
  horz : Mode
  vert : Mode
  /-- The attached image, `m_transfer_info.has_alpha`, and the number of channels of `*m_transfer_info.color_space` -/
  pixels : Pixels α
  hasAlpha : Bool
  colors : Nat
  /-- Whether `m_transfer_info.comp_repr` is `float_`, and `comp_repr_max()` for that representation -/
  isFloat : Bool
  max : α
  /-- The palette cache, and its conversion to `float_`: `m_palette_cache`, `m_palette_cache_f` -/
  palette : List (List α)
  paletteF : List (List φ)
  /-- The background color: what is returned by `ensure_color_slot_u()`, `ensure_color_slot_r()`, and, for representation `float_` and
  for others, `ensure_color_slot_f()` -/
  bgU : List α
  bgR : List α
  bgN : List α
  bgF : List φ
  /-- `pixel_convert()` from the representation of the image to `float_`: pixel_convert.hpp. The first arguments are `origin_has_alpha` and
  `destin_has_alpha`. -/
  toFloat : Bool → Bool → List α → List φ

/-- `m_num_channels`. -/
def Reader.numChannels (r : Reader α φ) : Nat := r.colors + r.hasAlpha.toNat

/-- `m_num_channels_ext`. -/
def Reader.numChannelsExt (r : Reader α φ) : Nat := r.colors + 1

/-- `Image::read()`: the contract. -/
def imageRead (W H : Int) (pixel : Int → Int → List α) (n : Nat) (x y : Int) (tray : Tray) (m : Mem α) : Option (Mem α) :=
  if 0 ≤ x ∧ x + tray.w ≤ W ∧ 0 ≤ y ∧ y + tray.h ≤ H then
    writePixels (fun i j => pixel (x + i) (y + j)) tray.iter tray.w tray.h n m
  else none

/-- Introduction of alpha components in `Reader::read()`: reader.hpp:1546-1555. -/
def addAlpha (max : α) (i : Nat) (tray : Tray) (m : Mem α) : Option (Mem α) :=
  loopY (fun x y m => store m (tray.iter.ptr x y + i) max) tray.w.toNat tray.h.toNat 0 m

/-- The color that is chosen for a color index in `Reader::read()`: reader.hpp:1594-1597. -/
def chooseColor (palette : List (List α)) (bg : List α) (index : Nat) : List α := palette.getD index bg

/-- `Reader::read()` for the representation of the image: reader.hpp:1519-1602. -/
def Reader.read (r : Reader α φ) (ensureAlpha : Bool) (x y : Int) (tray : Tray) (m : Mem α) : Option (Mem α) :=
  match r.pixels with
  | .direct color => do
    let m ← imageRead r.w r.h color r.numChannels x y tray m
    if ensureAlpha && !r.hasAlpha then addAlpha r.max (r.numChannelsExt - 1) tray m else some m
  | .indexed index =>
    let bg := if ensureAlpha then r.bgU else r.bgR
    let n := if ensureAlpha then r.numChannelsExt else r.numChannels
    imageRead r.w r.h (fun x y => chooseColor r.palette bg (index x y)) n x y tray m

/-- `Reader::read()` for representation `float_` when that is not the representation of the image: reader.hpp:1519-1602. Alpha components are
always requested in this case. -/
def Reader.readF (r : Reader α φ) (x y : Int) (tray : Tray) (m : Mem φ) : Option (Mem φ) :=
  match r.pixels with
  | .direct color => imageRead r.w r.h (fun x y => r.toFloat r.hasAlpha true (color x y)) r.numChannelsExt x y tray m
  | .indexed index => imageRead r.w r.h (fun x y => chooseColor r.paletteF r.bgF (index x y)) r.numChannelsExt x y tray m

/-- `Reader::read_e()` for the representation of the image: reader.hpp:1243-1516. -/
def Reader.readN (I : Nat) (r : Reader α φ) (ensureAlpha : Bool) (x y : Int) (tray : Tray) (m : Mem α) : Option (Mem α) :=
  let n := if ensureAlpha then r.numChannelsExt else r.numChannels
  let bg := if r.isFloat then r.bgN else if !ensureAlpha then r.bgR else r.bgU
  readE I (r.read ensureAlpha) bg n r.w r.h r.horz r.vert x y tray m

/-- `Reader::read_e()` for representation `float_` when that is not the representation of the image. -/
def Reader.readEF (I : Nat) (r : Reader α φ) (x y : Int) (tray : Tray) (m : Mem φ) : Option (Mem φ) :=
  readE I r.readF r.bgF r.numChannelsExt r.w r.h r.horz r.vert x y tray m

/-- The request: `R` is the representation of the image (`sameRepr`), `color_space` is the color space of the image (`sameSpace`), and
`has_alpha`, and the number of channels of `color_space`. -/
structure Request where
  sameRepr : Bool
  sameSpace : Bool
  hasAlpha : Bool
  colors : Nat
deriving DecidableEq, Repr

/-- `lossless` in `Reader::read_g()`: reader.hpp:1218-1221. -/
def lossless (r : Reader α φ) (q : Request) : Bool := q.sameRepr && q.sameSpace && !(!q.hasAlpha && r.hasAlpha)

/-- Memory for the specified number of components, and without values: the workspace of `Reader::read_g()`. -/
def workspace (size : Int) : Mem φ := fun a => if 0 ≤ a ∧ a < size then some none else none

/-- The pixels of a tray in a workspace. -/
def pixelsOf (m : Mem φ) (iter : Iter) (n : Nat) (x y : Nat) : Option (List φ) :=
  (List.range n).mapM fun c : Nat => load m (iter.ptr x y + c)

/-- `Reader::convert_2()`: reader.hpp:1893-1915. `conv` is `pixel_convert_a()`, and the origin is in a workspace. -/
def convert2 (conv : List φ → List γ) (ws : Mem φ) (origin : Tray) (k : Nat) (destin : Iter) (n : Nat) (m : Mem γ) : Option (Mem γ) :=
  loopY (fun x y m => do
    let pixel ← pixelsOf ws origin.iter k x y
    put (conv pixel) (destin.ptr x y) n 0 m) origin.w.toNat origin.h.toNat 0 m

/-- `Reader::read_g()` in the lossless case: reader.hpp:1214-1226. -/
def Reader.readG (I : Nat) (r : Reader α φ) (q : Request) (x y : Int) (tray : Tray) (m : Mem α) : Option (Mem α) :=
  r.readN I q.hasAlpha x y tray m

/-- `Reader::read_g()` in the other case, when the representation of the image is not `float_`: reader.hpp:1228-1239. The tray in the
workspace is that of impl/workspace.hpp:198-207. -/
def Reader.readGF (I : Nat) (r : Reader α φ) (q : Request) (conv : List φ → List γ) (x y : Int) (tray : Tray) (m : Mem γ) :
    Option (Mem γ) := do
  let k := r.numChannelsExt
  let stride ← arith I (intTy I) (k * tray.w)
  let tray2 : Tray := ⟨⟨0, k, stride⟩, tray.w, tray.h⟩
  let ws ← r.readEF I x y tray2 (workspace (k * tray.w * tray.h))
  convert2 conv ws tray2 k tray.iter (q.colors + q.hasAlpha.toNat) m

/-- The same when the representation of the image is `float_`. -/
def Reader.readGN (I : Nat) (r : Reader α φ) (q : Request) (conv : List α → List γ) (x y : Int) (tray : Tray) (m : Mem γ) :
    Option (Mem γ) := do
  let k := r.numChannelsExt
  let stride ← arith I (intTy I) (k * tray.w)
  let tray2 : Tray := ⟨⟨0, k, stride⟩, tray.w, tray.h⟩
  let ws ← r.readN I true x y tray2 (workspace (k * tray.w * tray.h))
  convert2 conv ws tray2 k tray.iter (q.colors + q.hasAlpha.toNat) m

/-- Calling of a function for each of a list of boxes: reader.hpp:984-986. -/
def forBoxes (I : Nat) (read : Int → Int → Tray → Mem α → Option (Mem α)) (x y : Int) (tray : Tray) : List Box → Mem α → Option (Mem α)
  | [], m => some m
  | b :: bs, m => do
    let t ← tray.subtray I b x y
    let m ← read b.x b.y t m
    forBoxes I read x y tray bs m

/-- `Reader::get_block_a()`: reader.hpp:979-988. `read` is the instance of `Reader::read_g()`. -/
def getBlock (I : Nat) (read : Int → Int → Tray → Mem α → Option (Mem α)) (x y : Int) (tray : Tray) (m : Mem α) : Option (Mem α) := do
  let boxes ← subdivide I ⟨x, y, tray.w, tray.h⟩
  forBoxes I read x y tray boxes m

end Verif.ImageReader
