import Verif.FormatAs.Model
import Mathlib.Algebra.Order.Field.Power
/-!
What the formatted values mean.
-/
namespace Verif.FormatAs.Spec

/-- The suffix of an ordinal in English. -/
def suffix (n : Nat) : String :=
  if n % 100 = 11 ∨ n % 100 = 12 ∨ n % 100 = 13 then "th"
  else if n % 10 = 1 then "st"
  else if n % 10 = 2 then "nd"
  else if n % 10 = 3 then "rd"
  else "th"

/-- The documented decadic prefixes with the corresponding power of 1000, and the absence of a prefix. -/
def decadic : List (String × Int) :=
  [("Y", 8), ("Z", 7), ("E", 6), ("P", 5), ("T", 4), ("G", 3), ("M", 2), ("k", 1), ("", 0), ("m", -1), ("u", -2),
   ("n", -3), ("p", -4), ("f", -5), ("a", -6), ("z", -7), ("y", -8)]

/-- The documented binary prefixes with the corresponding power of 1024, and the absence of a prefix. -/
def binary : List (String × Int) :=
  [("", 0), ("Ki", 1), ("Mi", 2), ("Gi", 3), ("Ti", 4), ("Pi", 5), ("Ei", 6), ("Zi", 7), ("Yi", 8)]

/-- A number that has a floating-point representation with 53 significant bits. -/
def Double (q : ℚ) : Prop := ∃ (z : ℤ) (e : ℤ), |z| < 2 ^ 53 ∧ q = z * 2 ^ e

/-- Rounding to a nearest number with 53 significant bits. -/
def Nearest (rnd : ℚ → ℚ) : Prop := ∀ x d, Double d → |rnd x - x| ≤ |d - x|

/-- What the formatted time `t` says about the time `v`, in seconds. -/
def Tells (v : ℚ) : Time → Prop
  | .hm h m => 3570 ≤ |v| ∧ (0 ≤ m ∧ m < 60) ∧ 1 ≤ |h| ∧ (v < 0 ↔ h < 0) ∧
      abs (|v| - (|(h : ℚ)| * 3600 + m * 60)) ≤ 30
  | .ms m s => 119 / 2 ≤ |v| ∧ |v| < 3570 ∧ (0 ≤ s ∧ s < 60) ∧ (1 ≤ |m| ∧ |m| < 60) ∧ (v < 0 ↔ m < 0) ∧
      abs (|v| - (|(m : ℚ)| * 60 + s)) ≤ 1 / 2
  | .quant q => |v| < 119 / 2 ∧ q = v

end Verif.FormatAs.Spec
