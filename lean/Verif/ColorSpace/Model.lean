import Mathlib.Data.Rat.Floor
import Mathlib.Algebra.Order.Floor.Ring
import Verif.CssColor.Model

/-!
# Model of conversion between color spaces and of conversion of color components

Model of `/repo/src/archon/util/color_space.hpp` (HSL and HSV), `/repo/src/archon/core/math.hpp` (periodic modulo),
`/repo/src/archon/util/unit_frac.hpp` (conversion of components), and the functions that use them in
`/repo/src/archon/util/color.hpp` and `/repo/src/archon/util/css_color.cpp`.

Floating-point numbers are rational numbers. Where a function `rnd` is specified, the result of each arithmetic operation is
rounded by that function. Where it is not, arithmetic is exact. Infinities, NaN, and signed zeros are not represented.
-/

namespace Verif.ColorSpace

open CssColor (Color Css)

/-- Rounding towards zero. -/
def trunc (x : ℚ) : ℤ := if 0 ≤ x then ⌊x⌋ else ⌈x⌉

/-- `std::fmod()`. -/
def fmod (x y : ℚ) : ℚ := x - y * trunc (x / y)

/-- `impl::periodic_mod()` (`/repo/src/archon/core/math.hpp:161-181`). The function `std::fmod()` is exact, and
addition is rounded. -/
def periodicMod (rnd : ℚ → ℚ) (a b : ℚ) : ℚ :=
  let c := fmod a b
  if b ≥ 0 then
    if c ≥ 0 then c
    else
      let c := rnd (c + b)
      if c < b then c else 0
  else
    if c ≤ 0 then c
    else
      let c := rnd (c + b)
      if c > b then c else 0

/-- A vector of three components. -/
abbrev Vec3 := ℚ × ℚ × ℚ

/-- The computation of hue (`/repo/src/archon/util/color_space.hpp:162-172`, and the same thing for HSV in lines `207-217`).
-/
def hue (r g b max d : ℚ) : ℚ :=
  if d ≠ 0 then
    if max = r then ((g - b) / d + (if g < b then 6 else 0)) / 6
    else if max = g then ((b - r) / d + 2) / 6
    else ((r - g) / d + 4) / 6
  else 0

/-- `cvt_sRGB_to_HSL()` (`/repo/src/archon/util/color_space.hpp:153-174`), in exact arithmetic. -/
def rgbToHsl (rgb : Vec3) : Vec3 :=
  let (r, g, b) := rgb
  let min := min (min r g) b
  let max := max (max r g) b
  let l := (max + min) / 2
  let d := max - min
  let e := if l > 1 / 2 then 2 - (max + min) else max + min
  let s := if e ≠ 0 then d / e else 0
  (hue r g b max d, s, l)

/-- `cvt_HSL_to_sRGB()` (`/repo/src/archon/util/color_space.hpp:177-194`), in exact arithmetic. -/
def hslToRgb (hsl : Vec3) : Vec3 :=
  let h := periodicMod id (hsl.1 * 360) 360
  let s := hsl.2.1
  let l := hsl.2.2
  let f (n : ℚ) : ℚ :=
    let k := fmod (n + h / 30) 12
    let a := s * min l (1 - l)
    l - a * max (-1) (min (min (k - 3) (9 - k)) 1)
  (f 0, f 8, f 4)

/-- `cvt_sRGB_to_HSV()` (`/repo/src/archon/util/color_space.hpp:197-219`), in exact arithmetic. -/
def rgbToHsv (rgb : Vec3) : Vec3 :=
  let (r, g, b) := rgb
  let min := min (min r g) b
  let max := max (max r g) b
  let v := max
  let d := max - min
  let s := if v ≠ 0 then d / v else 0
  (hue r g b max d, s, v)

/-- `cvt_HSV_to_sRGB()` (`/repo/src/archon/util/color_space.hpp:222-238`), in exact arithmetic. -/
def hsvToRgb (hsv : Vec3) : Vec3 :=
  let h := periodicMod id (hsv.1 * 360) 360
  let s := hsv.2.1
  let v := hsv.2.2
  let f (n : ℚ) : ℚ :=
    let k := fmod (n + h / 60) 6
    v - v * s * max 0 (min (min k (4 - k)) 1)
  (f 5, f 3, f 1)

/-! ### Components -/

/-- `int_to_flt()` (`/repo/src/archon/util/unit_frac.hpp:232-235`) with maximum value `max`. Conversion of the
integers is exact. -/
def intToFlt (rnd : ℚ → ℚ) (i max : Nat) : ℚ := rnd (i / max)

/-- `flt_to_int()` (`/repo/src/archon/util/unit_frac.hpp:197-226`) with maximum value `max`, for an integer type whose highest
value is `typeMax`. It is assumed that these, and `max + 1` if `max` is even, can be represented exactly as floating-point
numbers. -/
def fltToInt (rnd : ℚ → ℚ) (typeMax max : Nat) (v : ℚ) : Nat :=
  if v ≥ 0 then
    let v := rnd (v * (if max % 2 = 1 then 2 * ((max / 2 : Nat) + 1) else max + 1))
    if v ≤ typeMax then
      let w := (trunc v).toNat
      if w ≤ max then w else max
    else max
  else 0

/-- `flt_to_int_a()` (`/repo/src/archon/util/unit_frac.hpp:197-226`, `245-249`), in the same way. -/
def fltToIntA (rnd : ℚ → ℚ) (typeMax max : Nat) (v : ℚ) : Nat :=
  if v ≥ 0 then
    let v := rnd (v * max)
    let v := rnd (v + 1 / 2)
    if v ≤ typeMax then
      let w := (trunc v).toNat
      if w ≤ max then w else max
    else max
  else 0

/-- `Color::from_vec()` (`/repo/src/archon/util/color.hpp:161-170`), where the component type has highest value 255. -/
def fromVec (rnd : ℚ → ℚ) (v : ℚ × ℚ × ℚ × ℚ) : Color :=
  ⟨fltToInt rnd 255 255 v.1, fltToInt rnd 255 255 v.2.1, fltToInt rnd 255 255 v.2.2.1, fltToInt rnd 255 255 v.2.2.2⟩

/-- `Color::to_vec()` (`/repo/src/archon/util/color.hpp:173-180`). -/
def toVec (rnd : ℚ → ℚ) (c : Color) : ℚ × ℚ × ℚ × ℚ :=
  (intToFlt rnd c.r 255, intToFlt rnd c.g 255, intToFlt rnd c.b 255, intToFlt rnd c.a 255)

/-- `to_hex()` (`/repo/src/archon/util/css_color.cpp:81-88`). -/
def toHexComps (rnd : ℚ → ℚ) (r g b a : ℚ) : Color :=
  ⟨fltToInt rnd 255 255 r, fltToInt rnd 255 255 g, fltToInt rnd 255 255 b, fltToInt rnd 255 255 a⟩

/-- The functions `to_hex()` for the functional forms (`/repo/src/archon/util/css_color.cpp:91-115`). The conversion from HSL is in
exact arithmetic. Colors of the other forms are not passed to these functions. -/
def toHex (rnd : ℚ → ℚ) : Css ℚ → Color
  | .rgb r g b a => toHexComps rnd (rnd (r / 255)) (rnd (g / 255)) (rnd (b / 255)) a
  | .rgbP r g b a => toHexComps rnd (rnd (r / 100)) (rnd (g / 100)) (rnd (b / 100)) a
  | .hsl h s l a =>
    let rgb := hslToRgb (rnd (h / 360), rnd (s / 100), rnd (l / 100))
    toHexComps rnd rgb.1 rgb.2.1 rgb.2.2 a
  | _ => ⟨0, 0, 0, 0⟩

end Verif.ColorSpace
