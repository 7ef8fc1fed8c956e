import Mathlib.Data.Rat.Floor
import Mathlib.Algebra.Order.Floor.Ring
import Mathlib.Data.Int.Log

/-!
# Specification of HSL and HSV

Nothing here refers to the model.
-/

namespace Verif.ColorSpace.Spec

/-- The function `hue.to.rgb` of CSS Color Module Level 3 (section 4.2.4). -/
def hueToRgb (m1 m2 h : ℚ) : ℚ :=
  let h := if h < 0 then h + 1 else h
  let h := if h > 1 then h - 1 else h
  if h * 6 < 1 then m1 + (m2 - m1) * h * 6
  else if h * 2 < 1 then m2
  else if h * 3 < 2 then m1 + (m2 - m1) * (2 / 3 - h) * 6
  else m1

/-- The function `hsl.to.rgb` of CSS Color Module Level 3 (section 4.2.4). The hue is a number of revolutions, and is first
normalized. -/
def cssHslToRgb (h s l : ℚ) : ℚ × ℚ × ℚ :=
  let h := Int.fract h
  let m2 := if l ≤ 1 / 2 then l * (s + 1) else l + s - l * s
  let m1 := l * 2 - m2
  (hueToRgb m1 m2 (h + 1 / 3), hueToRgb m1 m2 h, hueToRgb m1 m2 (h - 1 / 3))

/-- The conventional definition of the conversion from HSV to RGB, in terms of the sixth of the circle that contains the hue
(Smith, Color gamut transform pairs). -/
def smithHsvToRgb (h s v : ℚ) : ℚ × ℚ × ℚ :=
  let h := 6 * Int.fract h
  let f := Int.fract h
  let p := v * (1 - s)
  let q := v * (1 - s * f)
  let t := v * (1 - s * (1 - f))
  match ⌊h⌋ with
  | 0 => (v, t, p)
  | 1 => (q, v, p)
  | 2 => (p, v, t)
  | 3 => (p, q, v)
  | 4 => (t, p, v)
  | _ => (v, p, q)

/-- Rounding to nearest integer with ties to even. -/
def nearestEven (q : ℚ) : ℤ :=
  if Int.fract q < 1 / 2 then ⌊q⌋
  else if 1 / 2 < Int.fract q then ⌊q⌋ + 1
  else if ⌊q⌋ % 2 = 0 then ⌊q⌋ else ⌊q⌋ + 1

/-- Rounding to a binary floating-point number with `p` bits in the significand, and without limits on the exponent. For `p = 24`
this is the rounding of the single-precision format of IEEE 754 for numbers in the range of its normal numbers. -/
def roundBin (p : ℤ) (x : ℚ) : ℚ :=
  nearestEven (x / 2 ^ (Int.log 2 |x| - (p - 1))) * 2 ^ (Int.log 2 |x| - (p - 1))

/-- The relative error is at most `u`. -/
def RelErr (u : ℚ) (rnd : ℚ → ℚ) : Prop := ∀ x, |rnd x - x| ≤ u * |x|

/-- Between zero and one. -/
def Unit (x : ℚ) : Prop := 0 ≤ x ∧ x ≤ 1

end Verif.ColorSpace.Spec
