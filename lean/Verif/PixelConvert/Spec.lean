import Verif.PixelConvert.Model
import Mathlib.Algebra.Field.Basic
/-!
Specification of conversion of pixels.

A pixel is a color, and possibly an alpha component. What a pixel means is a color in the floating-point scheme, with the components
multiplied by the opacity, and an opacity.
-/
namespace Verif.PixelConvert.Spec
open Verif.PixelConvert Verif.ImageIter

variable {α δ φ : Type}

/-- A pixel. -/
structure Pixel (α : Type) where
  color : List α
  alpha : Option α
deriving DecidableEq, _root_.Repr

/-- The components of the pixel in the order in which they are in memory. -/
def Pixel.comps (p : Pixel α) : List α := p.color ++ p.alpha.toList

/-- The meaning of the pixel: color multiplied by opacity, and opacity. -/
def Pixel.meaning (ar : Arith φ) (R : Repr α φ) (p : Pixel α) : List φ × φ :=
  match p.alpha with
  | none => (p.color.map R.toColor, ar.one)
  | some a => (p.color.map fun c => if R.isFloat then R.toColor c else ar.mul (R.toAlpha a) (R.toColor c), R.toAlpha a)

/-- The pixel with the specified meaning. Without an alpha component, the opacity is forgotten, which amounts to having black behind. -/
def express (ar : Arith φ) (S : Repr δ φ) (hasAlpha : Bool) (c : List φ × φ) : Pixel δ :=
  if hasAlpha then ⟨c.1.map fun v => if S.isFloat then S.fromColor v else S.fromColor (ar.unmul c.2 v), some (S.fromAlpha c.2)⟩
  else ⟨c.1.map S.fromColor, none⟩

/-- Conversion between color spaces. -/
def moved : Route φ → List φ × φ → List φ × φ
  | .same _, c => c
  | .other o d none, c => (d.fromRgb (o.toRgb c.1 c.2) c.2, c.2)
  | .other _ _ (some f), c => (f c.1 c.2, c.2)

/-- Opaque, or without alpha component. -/
def Solid (R : Repr α φ) (p : Pixel α) : Prop := ∀ a, p.alpha = some a → a = R.max

/-- What the numbers must satisfy: the highest alpha value is opacity one, and multiplying by one changes nothing. -/
structure Lawful (ar : Arith φ) (R : Repr α φ) : Prop where
  toMax : R.toAlpha R.max = ar.one
  fromOne : R.fromAlpha ar.one = R.max
  mulOne : ∀ c, ar.mul ar.one c = c
  unmulOne : ∀ c, ar.unmul ar.one c = c
  floatTo : R.isFloat = true → ∀ c, R.toAlpha c = R.toColor c
  floatFrom : R.isFloat = true → ∀ c, R.fromAlpha c = R.fromColor c

/-- Color space converters yield colors with the right number of components, and a custom converter is not used with RGB. -/
def RouteOk : Route φ → Prop
  | .same _ => True
  | .other _ d none => ∀ c a, (d.fromRgb c a).length = d.channels
  | .other o d (some f) => o.isRgb = false ∧ d.isRgb = false ∧ ∀ c a, (f c a).length = d.channels

/-- There are at least so many components in the array. -/
def Room (k : Nat) (m : Mem δ) : Prop := ∀ j : Nat, j < k → m j ≠ none

/-- The first components of the array are now as specified, and nothing else has changed. -/
def Wrote (l : List δ) (m m' : Mem δ) : Prop := ∀ a : Int, m' a = if h : 0 ≤ a ∧ a < l.length then some (some (l[a.toNat]'(by omega))) else m a

/-- A color, with the specified opacity, in front of another color: component by component. -/
def over [Ring φ] (alpha : φ) (c bg : List φ) : List φ := List.zipWith (fun v b => alpha * v + (1 - alpha) * b) c bg

/-- The arithmetic of a field. -/
def fieldArith [Field φ] : Arith φ := ⟨1, fun a c => a * c, fun a c => a⁻¹ * c⟩

end Verif.PixelConvert.Spec
