import Verif.Colormap.Model
import Mathlib.Algebra.BigOperators.Group.List.Basic

/-!
# What a user expects of colormaps and of the packing of color components
-/

namespace Verif.Colormap

/-- The bits of the mask are exactly those of a field at the specified position. -/
def IsField (mask shift width : Nat) : Prop :=
  0 < width ∧ ∀ i, mask.testBit i = true ↔ shift ≤ i ∧ i < shift + width

/-- The fields have no bit in common. -/
def Disjoint (s1 w1 s2 w2 : Nat) : Prop := ∀ i, ¬ (s1 ≤ i ∧ i < s1 + w1 ∧ s2 ≤ i ∧ i < s2 + w2)

/-- What the fields that come later in the list can add up to is less than the multiplier. -/
def Nested (mult max : Nat → Nat) : List Nat → Prop
  | [] => True
  | j :: l => (l.map fun k => max k * mult k).sum < mult j ∧ Nested mult max l

/-- The order is a result of sorting the fields by decreasing multiplier. -/
def SortedDown (mult : Nat → Nat) (n : Nat) (order : List Nat) : Prop :=
  order.Perm (List.range n) ∧ order.Pairwise fun a b => mult b ≤ mult a

/-- Value of a compound. -/
def value (offset : Nat) (mult : Nat → Nat) (n : Nat) (c : Nat → Nat) : Nat :=
  offset + ((List.range n).map fun i => c i * mult i).sum

/-- `s` is a nearest integer to `v * 65535 / max`. -/
def Nearest16 (v max s : Nat) : Prop :=
  2 * (s * max) ≤ 2 * (v * 65535) + max ∧ 2 * (v * 65535) ≤ 2 * (s * max) + max

/-- The three channels are numbered in some order. -/
def IsOrder (o0 o1 o2 : Nat) : Prop := [o0, o1, o2].Perm [0, 1, 2]

/-- The number of colors. -/
def numColors (f : Fields) : Nat := (f.max 0 + 1) * (f.max 1 + 1) * (f.max 2 + 1)

/-- The pixel value of a color. -/
def pixelOf (f : Fields) (r g b : Nat) : Nat :=
  f.offset + r * f.mult 0 + g * f.mult 1 + b * f.mult 2

/-- Components of a color that are in range. -/
def InRange (f : Fields) (r g b : Nat) : Prop := r ≤ f.max 0 ∧ g ≤ f.max 1 ∧ b ≤ f.max 2

end Verif.Colormap
