import Mathlib.Data.Nat.Bitwise
import Mathlib.Data.List.Basic

/-!
# Model of X11 colormaps and of the packing of color components

* `impl::MultFieldSpec`: `src/archon/display/noinst/mult_pixel_format.hpp`
* `x11::BitFields` and `x11::MultFields`: `src/archon/display/noinst/x11/support.hpp`
* `try_record_bit_fields()`, `MultFieldsDigest`, `PermMultFieldSpec`, `MultFieldPixelFormat`,
  `x11::init_grayscale_colormap()`, `x11::init_pseudocolor_colormap()`,
  `x11::init_directcolor_colormap()`, `x11::setup_standard_pseudocolor_colormap()`, and the allocation
  of colors in `PixelFormatCreator::create_grayscale()`:
  `src/archon/display/noinst/x11/support.cpp`

`none` means undefined behavior or failed assertion. An array is a function of its indexes.
-/

namespace Verif.Colormap

/-! ## Bit fields -/

/-- `std::countr_zero()` on a type of the specified width. -/
def countrZero : Nat → Nat → Nat
  | 0, _ => 0
  | w + 1, x => if x % 2 = 1 then 0 else countrZero w (x / 2) + 1

/-- `std::countr_one()` on a type of the specified width. -/
def countrOne : Nat → Nat → Nat
  | 0, _ => 0
  | w + 1, x => if x % 2 = 0 then 0 else countrOne w (x / 2) + 1

/-- The function `record` in `try_record_bit_fields()`
(`src/archon/display/noinst/x11/support.cpp:464-475`). The result is shift and width. `unsigned long`
has 64 bits. -/
def record (mask : Nat) : Option (Nat × Nat) :=
  if mask > 0 then
    let shift := countrZero 64 mask
    let width := countrOne 64 (mask >>> shift)
    if (2 ^ width - 1) <<< shift = mask then some (shift, width) else none
  else none

/-- `x11::BitFields` (`src/archon/display/noinst/x11/support.hpp:285-289`). -/
structure BitFields where
  redShift : Nat
  redWidth : Nat
  greenShift : Nat
  greenWidth : Nat
  blueShift : Nat
  blueWidth : Nat
deriving DecidableEq, Repr

/-- `try_record_bit_fields()` (`src/archon/display/noinst/x11/support.cpp:461-487`). `none` means that
the masks are rejected. -/
def recordBitFields (red green blue : Nat) : Option BitFields :=
  if red &&& green = 0 ∧ red &&& blue = 0 ∧ green &&& blue = 0 then
    match record red, record green, record blue with
    | some r, some g, some b => some ⟨r.1, r.2, g.1, g.2, b.1, b.2⟩
    | _, _, _ => none
  else none

/-! ## Packing of components -/

/-- `impl::MultFieldSpec` (`src/archon/display/noinst/mult_pixel_format.hpp:192-226`). The type of
compound values is unsigned, and `modulus` is the number of its values. -/
structure Spec where
  modulus : Nat
  numFields : Nat
  offset : Nat
  mult : Nat → Nat
  max : Nat → Nat
  order : List Nat

/-- `MultFieldSpec::pack()` (`src/archon/display/noinst/mult_pixel_format.hpp:517-523`). -/
def Spec.pack (s : Spec) (components : Nat → Nat) : Nat :=
  (List.range s.numFields).foldl (fun val i => (val + components i * s.mult i) % s.modulus) s.offset

/-- The loop of `MultFieldSpec::unpack()`
(`src/archon/display/noinst/mult_pixel_format.hpp:531-537`). -/
def Spec.unpackLoop (s : Spec) : List Nat → Nat → (Nat → Nat) → Bool → Option ((Nat → Nat) × Bool)
  | [], _, components, good => some (components, good)
  | j :: order, val, components, good =>
    if s.mult j = 0 then none
    else s.unpackLoop order (val % s.mult j)
      (fun k => if k = j then val / s.mult j else components k)
      (good && decide (val / s.mult j ≤ s.max j))

/-- `MultFieldSpec::unpack()` (`src/archon/display/noinst/mult_pixel_format.hpp:527-545`). -/
def Spec.unpack (s : Spec) (compound : Nat) : Option (Nat → Nat) :=
  match s.unpackLoop s.order ((compound + s.modulus - s.offset) % s.modulus) (fun _ => 0)
    (decide (compound ≥ s.offset)) with
  | none => none
  | some (components, good) => some (if good then components else fun _ => 0)

/-- `make_rev_perm()` followed by a lookup (`src/archon/display/noinst/x11/support.cpp:788-796` and
`:542-543`): the last position at which a value occurs. -/
def revPerm (perm : List Nat) (x : Nat) : Option Nat :=
  (List.range perm.length).foldl (fun r i => if perm[i]? = some x then some i else r) none

/-- `PermMultFieldSpec::pack()` (`src/archon/display/noinst/x11/support.cpp:527-533`). -/
def Spec.permPack (s : Spec) (perm : List Nat) (components : Nat → Nat) : Option Nat :=
  perm[s.pack components]?

/-- `PermMultFieldSpec::unpack()` (`src/archon/display/noinst/x11/support.cpp:537-552`). The index type
has 16 bits. -/
def Spec.permUnpack (s : Spec) (perm : List Nat) (compound : Nat) : Option (Nat → Nat) :=
  if compound < 2 ^ 16 then
    match revPerm perm compound with
    | some i => s.unpack i
    | none => some fun _ => 0
  else some fun _ => 0

/-- `x11::MultFields` (`src/archon/display/noinst/x11/support.hpp:290-318`). Channels are numbered: red,
green, blue. -/
structure Fields where
  offset : Nat
  mult : Nat → Nat
  max : Nat → Nat

/-- `MultFields::MultFields(const BitFields&, bool)` for color visuals
(`src/archon/display/noinst/x11/support.hpp:595-619`). -/
def Fields.ofBits (f : BitFields) : Option Fields :=
  if f.redShift < 32 ∧ f.greenShift < 32 ∧ f.blueShift < 32 ∧ f.redWidth ≤ 16 ∧ f.greenWidth ≤ 16 ∧
    f.blueWidth ≤ 16 then
    some ⟨0,
      fun i => if i = 0 then 2 ^ f.redShift else if i = 1 then 2 ^ f.greenShift else 2 ^ f.blueShift,
      fun i => if i = 0 then 2 ^ f.redWidth - 1 else if i = 1 then 2 ^ f.greenWidth - 1
        else 2 ^ f.blueWidth - 1⟩
  else none

/-- `MultFields::pack()` (`src/archon/display/noinst/x11/support.hpp:692-696`). This is what
`MultFieldPixelFormat::intern_color()` uses (`src/archon/display/noinst/x11/support.cpp:716`). -/
def Fields.pack (f : Fields) (red green blue : Nat) : Nat :=
  (red * f.mult 0 + green * f.mult 1 + blue * f.mult 2) % 2 ^ 64

/-- The field specification that is set up for images
(`src/archon/display/noinst/x11/support.cpp:726-784`). -/
def Fields.spec (f : Fields) (order : List Nat) : Spec := ⟨2 ^ 64, 3, f.offset, f.mult, f.max, order⟩

/-! ## Colormaps -/

/-- `MultFieldsDigest` (`src/archon/display/noinst/x11/support.cpp:1017-1037`): the fields, and the
channels in order of increasing multiplier. -/
structure Digest where
  fields : Fields
  o0 : Nat
  o1 : Nat
  o2 : Nat

/-- `MultFieldsDigest::is_valid_and_compact()` for color visuals
(`src/archon/display/noinst/x11/support.cpp:1040-1063`). The products are not too big for
`unsigned long` when they are compared, due to the preceding conditions. -/
def Digest.isValidAndCompact (d : Digest) (colormapSize : Nat) : Bool :=
  let max := d.fields.max
  let mult := d.fields.mult
  decide (d.fields.offset ≤ colormapSize ∧
    max d.o0 < mult d.o1 ∧
    max d.o1 < mult d.o2 / mult d.o1 ∧
    max d.o2 < (colormapSize - d.fields.offset) / mult d.o2 ∧
    mult d.o0 = 1 ∧
    mult d.o1 = max d.o0 + 1 ∧
    mult d.o2 = (max d.o1 + 1) * mult d.o1)

/-- `core::int_div_round_half_down()` for nonnegative arguments
(`src/archon/core/integer.hpp:2062-2073`). -/
def divRoundHalfDown (a b : Nat) : Option Nat :=
  if b = 0 then none
  else if a % b ≤ b / 2 then some (a / b) else some (a / b + 1)

/-- The function `scale` (`src/archon/display/noinst/x11/support.cpp:2817-2821` and `:2874-2878`). -/
def scale (val max : Nat) : Option Nat :=
  if max ≤ 65535 ∧ val ≤ max then divRoundHalfDown (val * 65535) max else none

/-- Red, green, and blue. -/
abbrev RGB := Nat × Nat × Nat

/-- The color that belongs to a position in the section that is covered by the fields
(`src/archon/display/noinst/x11/support.cpp:2890-2903`). -/
def pseudoColor (d : Digest) (weird : Bool) (val : Nat) : Option RGB :=
  let f := d.fields
  let v2 := val / f.mult d.o2
  let val := val % f.mult d.o2
  let v1 := val / f.mult d.o1
  let val := val % f.mult d.o1
  let comp : Nat → Nat := fun i => if i = d.o0 then val else if i = d.o1 then v1 else v2
  match scale (comp 0) (f.max 0), scale (comp 1) (f.max 1), scale (comp 2) (f.max 2) with
  | some r, some g, some b => some (if weird then 65535 - r else r, g, b)
  | _, _, _ => none

/-- The element of `colors` for a position in the colormap
(`src/archon/display/noinst/x11/support.cpp:2884-2904`). Initially, all colors are black. `color` is
`pseudoColor` or the corresponding function for gray levels. -/
def entry (color : Nat → Option RGB) (begin1 end1 j : Nat) : Option RGB :=
  if j ≥ begin1 ∧ j < end1 then color (j - begin1) else some (0, 0, 0)

/-- `XStoreColors()`: the colors are stored one after the other, where they are supposed to go
according to their pixel values. -/
def storeColors (cm : Nat → RGB) : List (Nat × RGB) → Nat → RGB
  | [] => cm
  | (pixel, rgb) :: colors => storeColors (fun k => if k = pixel then rgb else cm k) colors

/-- Filling in a chunk (`src/archon/display/noinst/x11/support.cpp:2884-2905`). `i` is the position in
the chunk. The pixel value is that position. -/
def chunk (color : Nat → Option RGB) (begin1 end1 offset : Nat) : Nat → Nat → Option (List (Nat × RGB))
  | 0, _ => some []
  | n + 1, i =>
    match entry color begin1 end1 (offset + i), chunk color begin1 end1 offset n (i + 1) with
    | some rgb, some colors => some ((i, rgb) :: colors)
    | _, _ => none

/-- The loop over the chunks (`src/archon/display/noinst/x11/support.cpp:2880-2908`). The first argument
bounds the number of turns. -/
def chunkLoop (color : Nat → Option RGB) (begin1 end1 end2 : Nat) :
    Nat → Nat → (Nat → RGB) → Option (Nat → RGB)
  | 0, offset, cm => if offset < end2 then none else some cm
  | fuel + 1, offset, cm =>
    if offset < end2 then
      let n := Nat.min (end2 - offset) 256
      match chunk color begin1 end1 offset n 0 with
      | some colors => chunkLoop color begin1 end1 end2 fuel (offset + n) (storeColors cm colors)
      | none => none
    else some cm

/-- `x11::init_pseudocolor_colormap()` (`src/archon/display/noinst/x11/support.cpp:2849-2909`). -/
def initPseudo (d : Digest) (colormapSize : Nat) (fill weird : Bool) (cm : Nat → RGB) :
    Option (Nat → RGB) :=
  let f := d.fields
  if f.max 0 ≤ 65535 ∧ f.max 1 ≤ 65535 ∧ f.max 2 ≤ 65535 ∧ d.isValidAndCompact colormapSize then
    let begin1 := f.offset
    let end1 := (f.max d.o2 + 1) * f.mult d.o2
    let begin2 := if fill then 0 else begin1
    let end2 := if fill then colormapSize else end1
    chunkLoop (pseudoColor d weird) begin1 end1 end2 (end2 - begin2) begin2 cm
  else none

/-- The gray level that belongs to a position in the section that is covered by the red field
(`src/archon/display/noinst/x11/support.cpp:2834-2840`). -/
def grayColor (max : Nat) (weird : Bool) (val : Nat) : Option RGB :=
  (scale val max).map fun v => if weird then (65535 - v, 65535 - v, 65535 - v) else (v, v, v)

/-- `x11::init_grayscale_colormap()` (`src/archon/display/noinst/x11/support.cpp:2795-2846`) for fields
where only the red one is in use. -/
def initGray (offset max colormapSize : Nat) (fill weird : Bool) (cm : Nat → RGB) :
    Option (Nat → RGB) :=
  if max ≤ 65535 ∧ offset ≤ colormapSize ∧ max < colormapSize - offset then
    let begin1 := offset
    let end1 := max + 1
    let begin2 := if fill then 0 else begin1
    let end2 := if fill then colormapSize else end1
    chunkLoop (grayColor max weird) begin1 end1 end2 (end2 - begin2) begin2 cm
  else none

/-- The division of the bits of a pixel into fields
(`src/archon/display/noinst/x11/support.cpp:2986-3002`). -/
def standardFields (depth : Nat) : BitFields :=
  let blueWidth := depth / 3
  let redWidth := (depth - blueWidth) / 2
  let greenWidth := depth - blueWidth - redWidth
  ⟨0, redWidth, redWidth, greenWidth, redWidth + greenWidth, blueWidth⟩

/-- `x11::setup_standard_pseudocolor_colormap()`
(`src/archon/display/noinst/x11/support.cpp:2981-3011`). `o0`, `o1`, and `o2` is the order determined by
`std::sort()`. -/
def setupPseudo (depth colormapSize : Nat) (o0 o1 o2 : Nat) (weird : Bool) (cm : Nat → RGB) :
    Option (Nat → RGB) :=
  match Fields.ofBits (standardFields depth) with
  | some f => initPseudo ⟨f, o0, o1, o2⟩ colormapSize true weird cm
  | none => none

/-! ## DirectColor -/

/-- A colormap of a `DirectColor` visual: one table per channel. -/
structure Direct where
  red : Nat → Nat
  green : Nat → Nat
  blue : Nat → Nat

/-- An element of `colors`: pixel value, and a value for each channel whose flag is set. -/
structure DirectColor where
  pixel : Nat
  red : Option Nat
  green : Option Nat
  blue : Option Nat

/-- The part of a pixel value that belongs to a field. -/
def field (pixel shift width : Nat) : Nat := (pixel >>> shift) % 2 ^ width

/-- `XStoreColors()` for one color on a `DirectColor` visual. -/
def Direct.store (f : BitFields) (cm : Direct) (c : DirectColor) : Direct where
  red := match c.red with
    | some v => fun k => if k = field c.pixel f.redShift f.redWidth then v else cm.red k
    | none => cm.red
  green := match c.green with
    | some v => fun k => if k = field c.pixel f.greenShift f.greenWidth then v else cm.green k
    | none => cm.green
  blue := match c.blue with
    | some v => fun k => if k = field c.pixel f.blueShift f.blueWidth then v else cm.blue k
    | none => cm.blue

/-- The color for one position (`src/archon/display/noinst/x11/support.cpp:2937-2959`). `conv` is
`change_bit_width()` to 16 bits, given the width and the value. -/
def directColor (conv : Nat → Nat → Nat) (f : BitFields) (weird : Bool) (j : Nat) : DirectColor where
  pixel := (if j < 2 ^ f.redWidth then j <<< f.redShift else 0) |||
    (if j < 2 ^ f.greenWidth then j <<< f.greenShift else 0) |||
    (if j < 2 ^ f.blueWidth then j <<< f.blueShift else 0)
  red := if j < 2 ^ f.redWidth then
    some (if weird then 65535 - conv f.redWidth j else conv f.redWidth j) else none
  green := if j < 2 ^ f.greenWidth then some (conv f.greenWidth j) else none
  blue := if j < 2 ^ f.blueWidth then some (conv f.blueWidth j) else none

/-- `x11::init_directcolor_colormap()` (`src/archon/display/noinst/x11/support.cpp:2912-2964`). Colors
are stored in chunks, one chunk after the other, in order. -/
def initDirect (conv : Nat → Nat → Nat) (f : BitFields) (colormapSize : Nat) (weird : Bool)
    (cm : Direct) : Option Direct :=
  if f.redShift < 31 ∧ f.greenShift < 31 ∧ f.blueShift < 31 ∧ f.redWidth ≤ 16 ∧ f.greenWidth ≤ 16 ∧
    f.blueWidth ≤ 16 then
    let n := Nat.max (Nat.max (2 ^ f.redWidth) (2 ^ f.greenWidth)) (2 ^ f.blueWidth)
    if n ≤ colormapSize then
      some ((List.range n).foldl (fun cm j => cm.store f (directColor conv f weird j)) cm)
    else none
  else none

/-! ## Allocation of gray levels -/

/-- The loop over the levels (`src/archon/display/noinst/x11/support.cpp:1349-1362`). `alloc` is what
`XAllocColor()` comes up with for each level. The result is the pixel values, and whether all the
allocations succeeded. -/
def allocLoop (alloc : Nat → Option Nat) : Nat → Nat → List Nat → List Nat × Bool
  | 0, _, perm => (perm, true)
  | n + 1, i, perm =>
    match alloc i with
    | none => (perm, false)
    | some pixel => allocLoop alloc n (i + 1) (perm ++ [pixel])

/-- Allocation of 16 gray levels in the default colormap
(`src/archon/display/noinst/x11/support.cpp:1342-1381`). The result is the permutation, if allocation
succeeded, or the pixel values that are passed to `XFreeColors()`, one after the other. -/
def allocGray (alloc : Nat → Option Nat) : List Nat ⊕ List Nat :=
  match allocLoop alloc 16 0 [] with
  | (perm, true) => .inl perm
  | (perm, false) => .inr ((List.range perm.length).map fun j => (perm.length - 1) - j)

end Verif.Colormap
