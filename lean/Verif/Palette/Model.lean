import Verif.ImageReader.Model
import Verif.ColorSlot.Model
/-!
Model of palettes in image readers: /repo/src/archon/image/reader.hpp and /repo/src/archon/image/reader.cpp.

`α` is the type of the components in the representation of the image, `φ` is `image::float_type`, `I` is the number of value bits of `int`, and
`Z` is the number of bits of `std::size_t`. As in the model of pixel iterators, `none` as a result of an operation is undefined behavior or
a failed assertion. Failing memory allocation, and failing computation of the amount of memory to allocate, are not modelled. The
value-initialization of the elements by `std::make_unique()` is ignored.

The palette image is accessed through a reader of its own, which is represented by its function `get_block_a()`, and by its size. What that
function does is the subject of `Verif.ImageReader`.
-/
namespace Verif.Palette
open Verif.Integer Verif.ImageIter Verif.ImageReader Verif.ColorSlot

variable {α φ : Type}

/-- `std::size_t`. -/
def sizeTy (Z : Nat) : Ty := ⟨false, Z⟩

/-- The type of the result of an arithmetic operation on an `std::size_t` and an `int`, or on two `std::size_t`. -/
def opTy (I Z : Nat) : Ty := promote I (sizeTy Z)

/-- `comp_repr_int_bit_width(color_index_repr)`, where `color_index_repr` is `int8`: comp_repr.hpp:144 and 602-613. -/
def indexBits : Int := 8

/-- The two multiplications of `Reader::determine_palette_size()`: reader.cpp:53-57. -/
def numPixels (I Z : Nat) (w h : Int) : Option Int := do
  match ← tryMul I (sizeTy Z) (intTy I) 1 (max w 0) with
  | none => some (sizeTy Z).max
  | some size =>
    match ← tryMul I (sizeTy Z) (intTy I) size (max h 0) with
    | none => some (sizeTy Z).max
    | some size => some size

/-- `Reader::determine_palette_size()`: reader.cpp:47-66. The argument is the size of the palette image, if there is one. -/
def determineSize (I Z : Nat) : Option (Int × Int) → Option Int
  | none => some 0
  | some (w, h) => do
    let size ← numPixels I Z w h
    let maxIndex ← intMask I (sizeTy Z) (min indexBits Z)
    let last ← arith I (sizeTy Z) (size - 1)
    if size = 0 ∨ maxIndex ≥ cast (sizeTy Z) last then some size
    else do
      let size ← arith I (sizeTy Z) (maxIndex + 1)
      some (cast (sizeTy Z) size)

/-- `Reader::instantiate_palette_cache()`: reader.cpp:306-338. `block` is `palette_reader.get_block_a<repr>()`, `w` is the width of the palette
image, `size` is `m_palette_size`, and `k` is `m_num_channels_ext`. The result is the contents of the cache. -/
def instantiate (I Z : Nat) (block : Int → Int → Tray → Mem α → Option (Mem α)) (w size : Int) (k : Nat) : Option (Mem α) := do
  let m := workspace (k * size)
  let rows ← divOp I (opTy I Z) (cast (opTy I Z) size) (cast (opTy I Z) w)
  let rows := cast (intTy I) rows
  let vertStride ← arith I (intTy I) (w * k)
  let iter : Iter := ⟨0, k, vertStride⟩
  let m ← block 0 0 ⟨iter, w, rows⟩ m
  let d ← arith I (opTy I Z) (cast (opTy I Z) rows * cast (opTy I Z) (cast (sizeTy Z) w))
  let remain ← arith I (opTy I Z) (cast (opTy I Z) size - d)
  let remain := cast (intTy I) remain
  if remain > 0 then block 0 rows ⟨iter.plus 0 rows, remain, 1⟩ m else some m

/-- Conversion of one color in `Reader::instantiate_palette_cache_f()`: reader.cpp:284-297. -/
def premultiply (s : Scheme α φ) (color : List α) : Option (List φ) :=
  if s.isFloat then some (color.map s.toColor)
  else do
    let last := color.length - 1
    let alpha ← color[last]?
    some ((color.take last).map (fun c => s.mul (s.toAlpha alpha) (s.toColor c)) ++ [s.toAlpha alpha])

/-- The loop of `Reader::instantiate_palette_cache_f()`: reader.cpp:283-300. The number of remaining rounds is `n`. -/
def convertLoop (s : Scheme α φ) (k : Nat) (source : Mem α) : (n i : Nat) → Mem φ → Option (Mem φ)
  | 0, _, m => some m
  | n + 1, i, m => do
    let color ← loadColor source (i * k) k
    let color ← premultiply s color
    let m ← put color (i * k) k 0 m
    convertLoop s k source n (i + 1) m

/-! ### State -/

/-- What does not change during the life of a reader: the arithmetic of the representation, `m_num_channels_ext`, the default colors of the
color slots, the size of the palette image if there is one, and `get_block_a()` of a reader of it. -/
structure Env (α φ : Type) where
  I : Nat
  Z : Nat
  s : Scheme α φ
  k : Nat
  dflt : Slot → Arg α φ
  palette : Option (Int × Int)
  block : Int → Int → Tray → Mem α → Option (Mem α)

/-- The color slots, and `m_palette_cache` and `m_palette_cache_f`, which are `none` when null. -/
structure PState (α φ : Type) where
  slots : State α φ
  cache : Option (Mem α)
  cacheF : Option (Mem φ)

/-- The initial state. -/
def pinit : PState α φ := ⟨init, none, none⟩

/-- `Reader::ensure_palette_cache()`: reader.hpp:1861-1869. -/
def ensureCache (e : Env α φ) (size : Int) (st : PState α φ) : Option (PState α φ × Mem α) :=
  match st.cache with
  | some m => some (st, m)
  | none => do
    let (w, _) ← e.palette
    let m ← instantiate e.I e.Z e.block w size e.k
    some ({ st with cache := some m }, m)

/-- `Reader::ensure_palette_cache_f()`: reader.hpp:1853-1858, and `Reader::instantiate_palette_cache_f()`: reader.cpp:267-303. -/
def ensureCacheF (e : Env α φ) (size : Int) (st : PState α φ) : Option (PState α φ × Mem φ) :=
  match st.cacheF with
  | some m => some (st, m)
  | none => do
    let (st, source) ← ensureCache e size st
    let m ← convertLoop e.s e.k source size.toNat 0 (workspace (size * e.k))
    some ({ st with cacheF := some m }, m)

variable [DecidableEq α] [DecidableEq φ]

/-- The last part of `Reader::palette_lookup_a()`: reader.hpp:1117-1134. -/
def lookupNeutral (e : Env α φ) (size : Int) (index : Nat) (st : PState α φ) : Option (PState α φ × Out α φ) := do
  let (st, m) ← ensureCacheF e size st
  let color ← loadColor m (e.k * index) e.k
  some (st, .converted color)

/-- `Reader::palette_lookup_a()`: reader.hpp:1077-1135. -/
def lookup (e : Env α φ) (index : Nat) (q : ColorSlot.Request) (st : PState α φ) : Option (PState α φ × Out α φ) := do
  let size ← determineSize e.I e.Z e.palette
  if index ≥ size then do
    let (slots, out) ← getColor e.s e.k e.dflt .background q st.slots
    some ({ st with slots := slots }, out)
  else if q.sameRepr && q.sameSpace then do
    let (st, m) ← ensureCache e size st
    let alpha ← load m (e.k * index + (e.k - 1 : Nat))
    if q.hasAlpha || e.s.isFloat || decide (alpha = e.s.max) then do
      let color ← loadColor m (e.k * index) (e.k - (!q.hasAlpha).toNat)
      some (st, .exact color)
    else lookupNeutral e size index st
  else lookupNeutral e size index st

/-! ### Sequences of operations -/

/-- The operations: those on color slots, palette lookup, and what `Reader::read()` (reader.hpp:1519-1602) gets to see of the palette, in the
representation of the image, and in `float_`. -/
inductive Op (α φ : Type) where
  | slot (op : ColorSlot.Op α φ)
  | lookup (index : Nat) (q : ColorSlot.Request)
  | entries
  | entriesF

/-- What is returned by an operation. -/
inductive Result (α φ : Type) where
  | slot (res : ColorSlot.Result α φ)
  | lookup (out : Out α φ)
  | entries (colors : List (List α))
  | entriesF (colors : List (List φ))
deriving DecidableEq

/-- All colors in a cache: those at `palette_base + index * std::size_t(num_channels_ext)`, as in reader.hpp:1594-1597. -/
def allColors {β : Type} (m : Mem β) (size k : Nat) : Option (List (List β)) := (List.range size).mapM fun i : Nat => loadColor m (i * k) k

/-- One operation. -/
def step (e : Env α φ) (op : Op α φ) (st : PState α φ) : Option (PState α φ × Result α φ) :=
  match op with
  | .slot op => (ColorSlot.step e.s e.k e.dflt op st.slots).map fun (slots, res) => ({ st with slots := slots }, .slot res)
  | .lookup index q => (lookup e index q st).map fun (st, out) => (st, .lookup out)
  | .entries => do
    let size ← determineSize e.I e.Z e.palette
    let (st, m) ← ensureCache e size st
    let colors ← allColors m size.toNat e.k
    some (st, .entries colors)
  | .entriesF => do
    let size ← determineSize e.I e.Z e.palette
    let (st, m) ← ensureCacheF e size st
    let colors ← allColors m size.toNat e.k
    some (st, .entriesF colors)

/-- A sequence of operations. -/
def run (e : Env α φ) : List (Op α φ) → PState α φ → Option (PState α φ × List (Result α φ))
  | [], st => some (st, [])
  | op :: ops, st => do
    let (st, res) ← step e op st
    let (st, rest) ← run e ops st
    some (st, res :: rest)

end Verif.Palette
