import Verif.ImageIter.Model
/-!
Model of conversion of a pixel from one format to another: `image::pixel_convert()` and `image::pixel_convert_a()` in
src/archon/image/pixel_convert.hpp, `image::comp_repr_convert()` in src/archon/image/comp_repr.hpp, and `image::color_space_convert()` and
the standard color spaces in src/archon/image/color_space.hpp and color_space.cpp.

Arrays of components are memories in the sense of the model of pixel iterators (Verif/ImageIter/Model.lean), with the component at index
`i` at address `i`. Access to a component that is not there, reading of a component that was never set, and violation of an assertion are
the outcome `none`. Arithmetic on `float_type` is a parameter.
-/
namespace Verif.PixelConvert
open Verif.ImageIter

variable {α δ φ : Type}

/-- The arithmetic of `image::float_type` that is used. `unmul a c` is `inv_alpha * c` where `inv_alpha` is `1.0 / a`, or zero when `a` is
zero: comp_repr.hpp:679-682. -/
structure Arith (φ : Type) where
  one : φ
  mul : φ → φ → φ
  unmul : φ → φ → φ

/-- A component representation scheme: whether it is the floating-point scheme, `comp_repr_max<R>()`, `color_comp_to_float<R>()`,
`alpha_comp_to_float<R>()`, `color_comp_from_float<R>()`, and `alpha_comp_from_float<R>()`: comp_repr.hpp:515-590. -/
structure Repr (α φ : Type) where
  isFloat : Bool
  max : α
  toColor : α → φ
  toAlpha : α → φ
  fromColor : φ → α
  fromAlpha : φ → α

/-- `CompRepr::float_`. -/
def floatRepr (ar : Arith φ) : Repr φ φ := ⟨true, ar.one, id, id, id, id⟩

/-- A loop that assigns to a number of consecutive components. -/
def fill (f : Nat → Option δ) : (n i : Nat) → Mem δ → Option (Mem δ)
  | 0, _, m => some m
  | n + 1, i, m => do
    let v ← f i
    let m ← store m i v
    fill f n (i + 1) m

/-- Conversion without undoing or doing premultiplication: alternatives 1 and 4 of comp_repr.hpp:663-666 and 701-706. The parameter
`intToInt` is the function applied to each component when both schemes are integer schemes, `int_to_int()`, or nothing at all when they are
the same scheme. -/
def direct (R : Repr α φ) (S : Repr δ φ) (intToInt : α → δ) (c : α) : δ :=
  if R.isFloat then S.fromColor (R.toColor c) else intToInt c

/-- Alternative 2, floating-point to integer, with alpha: comp_repr.hpp:677-686. -/
def unpremultiply (ar : Arith φ) (R : Repr α φ) (S : Repr δ φ) (origin : Nat → Option α) (n : Nat) (destin : Mem δ) : Option (Mem δ) := do
  let a ← origin (n - 1)
  let alpha := R.toAlpha a
  let m ← fill (fun i => (origin i).map fun c => S.fromColor (ar.unmul alpha (R.toColor c))) (n - 1) 0 destin
  store m ((n - 1 : Nat) : Int) (S.fromAlpha alpha)

/-- Alternative 3, integer to floating-point, with alpha: comp_repr.hpp:692-699. -/
def premultiply (ar : Arith φ) (R : Repr α φ) (S : Repr δ φ) (origin : Nat → Option α) (n : Nat) (destin : Mem δ) : Option (Mem δ) := do
  let a ← origin (n - 1)
  let alpha := R.toAlpha a
  let m ← fill (fun i => (origin i).map fun c => S.fromColor (ar.mul alpha (R.toColor c))) (n - 1) 0 destin
  store m ((n - 1 : Nat) : Int) (S.fromAlpha alpha)

/-- `comp_repr_convert()`: comp_repr.hpp:650-708. -/
def compReprConvert (ar : Arith φ) (R : Repr α φ) (S : Repr δ φ) (intToInt : α → δ) (origin : Nat → Option α) (destin : Mem δ) (n : Nat)
    (hasAlpha : Bool) : Option (Mem δ) :=
  if n = 0 then none
  else if R.isFloat = S.isFloat then fill (fun i => (origin i).map (direct R S intToInt)) n 0 destin
  else if R.isFloat then
    if hasAlpha = false then fill (fun i => (origin i).map fun c => S.fromColor (R.toColor c)) n 0 destin
    else unpremultiply ar R S origin n destin
  else
    if hasAlpha = false then fill (fun i => (origin i).map fun c => S.fromColor (R.toColor c)) n 0 destin
    else premultiply ar R S origin n destin

/-- `impl::pixel_convert_remove_alpha()`: pixel_convert.hpp:97-110. -/
def removeAlpha (ar : Arith φ) (R : Repr α φ) (S : Repr δ φ) (origin : Nat → Option α) (destin : Mem δ) (n : Nat) : Option (Mem δ) :=
  if R.isFloat then none
  else do
    let a ← origin n
    let alpha := R.toAlpha a
    fill (fun i => (origin i).map fun c => S.fromColor (ar.mul alpha (R.toColor c))) n 0 destin

/-- The short circuit of `pixel_convert()`: pixel_convert.hpp:128-138. -/
def shortConvert (ar : Arith φ) (R : Repr α φ) (S : Repr δ φ) (intToInt : α → δ) (origin : Nat → Option α) (originAlpha : Bool)
    (destin : Mem δ) (destinAlpha : Bool) (n : Nat) : Option (Mem δ) := do
  let remove := originAlpha && !destinAlpha
  let add := !originAlpha && destinAlpha
  let k := if remove then n else n + originAlpha.toNat
  let m ← compReprConvert ar R S intToInt origin destin k (if remove then false else originAlpha)
  if add then store m n S.max else some m

/-- `pixel_convert()`: pixel_convert.hpp:114-141. The color space has `n` channels. -/
def pixelConvert [DecidableEq α] (ar : Arith φ) (R : Repr α φ) (S : Repr δ φ) (intToInt : α → δ) (origin : Nat → Option α)
    (originAlpha : Bool) (destin : Mem δ) (destinAlpha : Bool) (n : Nat) : Option (Mem δ) := do
  let remove := originAlpha && !destinAlpha
  let short ← (if R.isFloat || !remove then some true else (origin n).map fun a => decide (a = R.max))
  if short then shortConvert ar R S intToInt origin originAlpha destin destinAlpha n
  else removeAlpha ar R S origin destin n

/-- A color space: `get_num_channels()`, `is_rgb()`, `to_rgb()`, and `from_rgb()`: color_space.hpp:72-140. -/
structure Space (φ : Type) where
  channels : Nat
  isRgb : Bool
  toRgb : List φ → φ → List φ
  fromRgb : List φ → φ → List φ

/-- The first components of an array. -/
def loadN (m : Mem φ) (n : Nat) : Option (List φ) := (List.range n).mapM fun (i : Nat) => load m i

/-- Overwriting of the first components of an array. -/
def storeN (m : Mem φ) (l : List φ) : Option (Mem φ) := put l 0 l.length 0 m

/-- A custom color space converter: it replaces the components of the origin color space by those of the destination color space:
color_space.hpp:251-262. -/
abbrev Converter (φ : Type) := List φ → φ → List φ

/-- Which color spaces are involved: the same one, or different ones with, or without a custom converter. -/
inductive Route (φ : Type) where
  | same (space : Space φ)
  | other (origin destin : Space φ) (custom : Option (Converter φ))

/-- The origin color space. -/
def Route.origin : Route φ → Space φ
  | .same s => s
  | .other o _ _ => o

/-- The destination color space. -/
def Route.destin : Route φ → Space φ
  | .same s => s
  | .other _ d _ => d

/-- `impl::color_space_convert()`: color_space.cpp:105-121. -/
def colorSpaceConvertImpl (o d : Space φ) (custom : Option (Converter φ)) (alpha : φ) (pixel : Mem φ) : Option (Mem φ) := do
  let c ← loadN pixel o.channels
  match custom with
  | none => storeN pixel (d.fromRgb (o.toRgb c alpha) alpha)
  | some f => if o.isRgb || d.isRgb then none else storeN pixel (f c alpha)

/-- `color_space_convert()`: color_space.hpp:498-508. -/
def colorSpaceConvert (route : Route φ) (alpha : φ) (pixel : Mem φ) : Option (Mem φ) :=
  match route with
  | .same _ => some pixel
  | .other o d custom => colorSpaceConvertImpl o d custom alpha pixel

/-- The case where conversion to floating-point is not needed: pixel_convert.hpp:172-184. The number of channels are `k` and `k'`. -/
def intConvert (S : Repr δ φ) (intToInt : α → δ) (origin : Nat → Option α) (destin : Mem δ) (k k' : Nat) : Option (Mem δ) := do
  let n := min k k'
  let m ← fill (fun i => (origin i).map intToInt) n 0 destin
  if n < k' then (if n = k' - 1 then store m n S.max else none) else some m

/-- The conversion through floating-point components: pixel_convert.hpp:188-207. -/
def floatConvert (ar : Arith φ) (R : Repr α φ) (S : Repr δ φ) (intToInt : α → δ) (route : Route φ) (origin : Nat → Option α)
    (originAlpha : Bool) (destin : Mem δ) (destinAlpha : Bool) (interm : Mem φ) : Option (Mem δ) := do
  let k := route.origin.channels + originAlpha.toNat
  let k' := route.destin.channels + destinAlpha.toNat
  let m ← compReprConvert ar R (floatRepr ar) R.toColor origin interm k originAlpha
  let alpha ← (if originAlpha then load m ((k - 1 : Nat) : Int) else some ar.one)
  let m ← colorSpaceConvert route alpha m
  let m ← (if destinAlpha then store m ((k' - 1 : Nat) : Int) alpha else some m)
  compReprConvert ar (floatRepr ar) S S.fromColor (fun i => load m (i : Int)) destin k' destinAlpha

/-- Whether the color spaces are the same. -/
def Route.isSame : Route φ → Bool
  | .same _ => true
  | .other _ _ _ => false

/-- `pixel_convert_a()`: pixel_convert.hpp:145-208. -/
def pixelConvertA [DecidableEq α] (ar : Arith φ) (R : Repr α φ) (S : Repr δ φ) (intToInt : α → δ) (route : Route φ)
    (origin : Nat → Option α) (originAlpha : Bool) (destin : Mem δ) (destinAlpha : Bool) (interm : Mem φ) : Option (Mem δ) := do
  let k := route.origin.channels + originAlpha.toNat
  let k' := route.destin.channels + destinAlpha.toNat
  if R.isFloat = false ∧ S.isFloat = false then do
    let solid ← (if originAlpha then (origin (k - 1)).map fun a => decide (a = R.max) else some true)
    if route.isSame && (solid || destinAlpha) then intConvert S intToInt origin destin k k'
    else floatConvert ar R S intToInt route origin originAlpha destin destinAlpha interm
  else floatConvert ar R S intToInt route origin originAlpha destin destinAlpha interm

/-! ### Standard color spaces -/

/-- `ColorSpaceRGB`: color_space.cpp:77-88. -/
def rgb : Space φ := ⟨3, true, fun c _ => c.take 3, fun c _ => c.take 3⟩

/-- `ColorSpaceLum`: color_space.cpp:52-74, and `cvt_RGB_to_Lum()` and `cvt_Lum_to_RGB()` in src/archon/util/color_space.hpp:359-372. The
weights of the three channels are parameters. -/
def lum [Add φ] [Mul φ] [Zero φ] (wr wg wb : φ) : Space φ :=
  ⟨1, false, fun c _ => List.replicate 3 (c.getD 0 0), fun c _ => [wr * c.getD 0 0 + wg * c.getD 1 0 + wb * c.getD 2 0]⟩

/-- `ColorSpaceDegen`: color_space.cpp:35-49. -/
def degen [One φ] : Space φ := ⟨0, false, fun _ _ => List.replicate 3 1, fun _ _ => []⟩

end Verif.PixelConvert
