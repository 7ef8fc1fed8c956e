import Verif.IntText.Spec

/-!
# Specification of CSS colors

The syntax of colors according to CSS Color Module Level 3, extended with the hexadecimal notation that has an alpha component.
Colors are quadruples of red, green, blue, and alpha, where each one is a natural number that is at most 255.
Nothing here refers to the model.
-/

namespace Verif.CssColor.Spec

/-- Red, green, blue, and alpha. -/
abbrev Rgba := Nat × Nat × Nat × Nat

/-- The color keywords of CSS Color Module Level 3 (sections 4.2.1 and 4.3). -/
def keywords : List (String × Rgba) := [
  ("transparent", 0, 0, 0, 0),
  ("aliceblue", 240, 248, 255, 255),
  ("antiquewhite", 250, 235, 215, 255),
  ("aqua", 0, 255, 255, 255),
  ("aquamarine", 127, 255, 212, 255),
  ("azure", 240, 255, 255, 255),
  ("beige", 245, 245, 220, 255),
  ("bisque", 255, 228, 196, 255),
  ("black", 0, 0, 0, 255),
  ("blanchedalmond", 255, 235, 205, 255),
  ("blue", 0, 0, 255, 255),
  ("blueviolet", 138, 43, 226, 255),
  ("brown", 165, 42, 42, 255),
  ("burlywood", 222, 184, 135, 255),
  ("cadetblue", 95, 158, 160, 255),
  ("chartreuse", 127, 255, 0, 255),
  ("chocolate", 210, 105, 30, 255),
  ("coral", 255, 127, 80, 255),
  ("cornflowerblue", 100, 149, 237, 255),
  ("cornsilk", 255, 248, 220, 255),
  ("crimson", 220, 20, 60, 255),
  ("cyan", 0, 255, 255, 255),
  ("darkblue", 0, 0, 139, 255),
  ("darkcyan", 0, 139, 139, 255),
  ("darkgoldenrod", 184, 134, 11, 255),
  ("darkgray", 169, 169, 169, 255),
  ("darkgreen", 0, 100, 0, 255),
  ("darkgrey", 169, 169, 169, 255),
  ("darkkhaki", 189, 183, 107, 255),
  ("darkmagenta", 139, 0, 139, 255),
  ("darkolivegreen", 85, 107, 47, 255),
  ("darkorange", 255, 140, 0, 255),
  ("darkorchid", 153, 50, 204, 255),
  ("darkred", 139, 0, 0, 255),
  ("darksalmon", 233, 150, 122, 255),
  ("darkseagreen", 143, 188, 143, 255),
  ("darkslateblue", 72, 61, 139, 255),
  ("darkslategray", 47, 79, 79, 255),
  ("darkslategrey", 47, 79, 79, 255),
  ("darkturquoise", 0, 206, 209, 255),
  ("darkviolet", 148, 0, 211, 255),
  ("deeppink", 255, 20, 147, 255),
  ("deepskyblue", 0, 191, 255, 255),
  ("dimgray", 105, 105, 105, 255),
  ("dimgrey", 105, 105, 105, 255),
  ("dodgerblue", 30, 144, 255, 255),
  ("firebrick", 178, 34, 34, 255),
  ("floralwhite", 255, 250, 240, 255),
  ("forestgreen", 34, 139, 34, 255),
  ("fuchsia", 255, 0, 255, 255),
  ("gainsboro", 220, 220, 220, 255),
  ("ghostwhite", 248, 248, 255, 255),
  ("gold", 255, 215, 0, 255),
  ("goldenrod", 218, 165, 32, 255),
  ("gray", 128, 128, 128, 255),
  ("green", 0, 128, 0, 255),
  ("greenyellow", 173, 255, 47, 255),
  ("grey", 128, 128, 128, 255),
  ("honeydew", 240, 255, 240, 255),
  ("hotpink", 255, 105, 180, 255),
  ("indianred", 205, 92, 92, 255),
  ("indigo", 75, 0, 130, 255),
  ("ivory", 255, 255, 240, 255),
  ("khaki", 240, 230, 140, 255),
  ("lavender", 230, 230, 250, 255),
  ("lavenderblush", 255, 240, 245, 255),
  ("lawngreen", 124, 252, 0, 255),
  ("lemonchiffon", 255, 250, 205, 255),
  ("lightblue", 173, 216, 230, 255),
  ("lightcoral", 240, 128, 128, 255),
  ("lightcyan", 224, 255, 255, 255),
  ("lightgoldenrodyellow", 250, 250, 210, 255),
  ("lightgray", 211, 211, 211, 255),
  ("lightgreen", 144, 238, 144, 255),
  ("lightgrey", 211, 211, 211, 255),
  ("lightpink", 255, 182, 193, 255),
  ("lightsalmon", 255, 160, 122, 255),
  ("lightseagreen", 32, 178, 170, 255),
  ("lightskyblue", 135, 206, 250, 255),
  ("lightslategray", 119, 136, 153, 255),
  ("lightslategrey", 119, 136, 153, 255),
  ("lightsteelblue", 176, 196, 222, 255),
  ("lightyellow", 255, 255, 224, 255),
  ("lime", 0, 255, 0, 255),
  ("limegreen", 50, 205, 50, 255),
  ("linen", 250, 240, 230, 255),
  ("magenta", 255, 0, 255, 255),
  ("maroon", 128, 0, 0, 255),
  ("mediumaquamarine", 102, 205, 170, 255),
  ("mediumblue", 0, 0, 205, 255),
  ("mediumorchid", 186, 85, 211, 255),
  ("mediumpurple", 147, 112, 219, 255),
  ("mediumseagreen", 60, 179, 113, 255),
  ("mediumslateblue", 123, 104, 238, 255),
  ("mediumspringgreen", 0, 250, 154, 255),
  ("mediumturquoise", 72, 209, 204, 255),
  ("mediumvioletred", 199, 21, 133, 255),
  ("midnightblue", 25, 25, 112, 255),
  ("mintcream", 245, 255, 250, 255),
  ("mistyrose", 255, 228, 225, 255),
  ("moccasin", 255, 228, 181, 255),
  ("navajowhite", 255, 222, 173, 255),
  ("navy", 0, 0, 128, 255),
  ("oldlace", 253, 245, 230, 255),
  ("olive", 128, 128, 0, 255),
  ("olivedrab", 107, 142, 35, 255),
  ("orange", 255, 165, 0, 255),
  ("orangered", 255, 69, 0, 255),
  ("orchid", 218, 112, 214, 255),
  ("palegoldenrod", 238, 232, 170, 255),
  ("palegreen", 152, 251, 152, 255),
  ("paleturquoise", 175, 238, 238, 255),
  ("palevioletred", 219, 112, 147, 255),
  ("papayawhip", 255, 239, 213, 255),
  ("peachpuff", 255, 218, 185, 255),
  ("peru", 205, 133, 63, 255),
  ("pink", 255, 192, 203, 255),
  ("plum", 221, 160, 221, 255),
  ("powderblue", 176, 224, 230, 255),
  ("purple", 128, 0, 128, 255),
  ("red", 255, 0, 0, 255),
  ("rosybrown", 188, 143, 143, 255),
  ("royalblue", 65, 105, 225, 255),
  ("saddlebrown", 139, 69, 19, 255),
  ("salmon", 250, 128, 114, 255),
  ("sandybrown", 244, 164, 96, 255),
  ("seagreen", 46, 139, 87, 255),
  ("seashell", 255, 245, 238, 255),
  ("sienna", 160, 82, 45, 255),
  ("silver", 192, 192, 192, 255),
  ("skyblue", 135, 206, 235, 255),
  ("slateblue", 106, 90, 205, 255),
  ("slategray", 112, 128, 144, 255),
  ("slategrey", 112, 128, 144, 255),
  ("snow", 255, 250, 250, 255),
  ("springgreen", 0, 255, 127, 255),
  ("steelblue", 70, 130, 180, 255),
  ("tan", 210, 180, 140, 255),
  ("teal", 0, 128, 128, 255),
  ("thistle", 216, 191, 216, 255),
  ("tomato", 255, 99, 71, 255),
  ("turquoise", 64, 224, 208, 255),
  ("violet", 238, 130, 238, 255),
  ("wheat", 245, 222, 179, 255),
  ("white", 255, 255, 255, 255),
  ("whitesmoke", 245, 245, 245, 255),
  ("yellow", 255, 255, 0, 255),
  ("yellowgreen", 154, 205, 50, 255)]

/-- The character is a hexadecimal digit with the specified value. -/
def IsHexDigit (c : Char) (v : Nat) : Prop := IntText.Spec.IsDigit 16 c.toNat v

/-- What follows the number sign in the hexadecimal notation, and the color that it denotes. In the short notation, digits are
repeated. -/
inductive HexNotation : List Char → Rgba → Prop
  | short {c1 c2 c3 x y z} : IsHexDigit c1 x → IsHexDigit c2 y → IsHexDigit c3 z →
      HexNotation [c1, c2, c3] (16 * x + x, 16 * y + y, 16 * z + z, 255)
  | shortAlpha {c1 c2 c3 c4 x y z w} : IsHexDigit c1 x → IsHexDigit c2 y → IsHexDigit c3 z → IsHexDigit c4 w →
      HexNotation [c1, c2, c3, c4] (16 * x + x, 16 * y + y, 16 * z + z, 16 * w + w)
  | long {c1 c2 c3 c4 c5 c6 x x' y y' z z'} : IsHexDigit c1 x → IsHexDigit c2 x' → IsHexDigit c3 y → IsHexDigit c4 y' →
      IsHexDigit c5 z → IsHexDigit c6 z' →
      HexNotation [c1, c2, c3, c4, c5, c6] (16 * x + x', 16 * y + y', 16 * z + z', 255)
  | longAlpha {c1 c2 c3 c4 c5 c6 c7 c8 x x' y y' z z' w w'} : IsHexDigit c1 x → IsHexDigit c2 x' → IsHexDigit c3 y →
      IsHexDigit c4 y' → IsHexDigit c5 z → IsHexDigit c6 z' → IsHexDigit c7 w → IsHexDigit c8 w' →
      HexNotation [c1, c2, c3, c4, c5, c6, c7, c8] (16 * x + x', 16 * y + y', 16 * z + z', 16 * w + w')

/-- An argument in functional notation: a number (according to `num`) with or without a percent sign. The text of a
number contains neither a comma nor a percent sign, and does not begin with a space, unless it is the first
one. -/
inductive Arg {F : Type} (num : List Char → Option F) (first : Bool) : List Char → F → Bool → Prop
  | plain {t v} : num t = some v → ',' ∉ t → '%' ∉ t → (first = false → t.head? ≠ some ' ') → Arg num first t v false
  | percent {t v} : num t = some v → ',' ∉ t → '%' ∉ t → (first = false → t.head? ≠ some ' ') →
      Arg num first (t ++ ['%']) v true

/-- Separator: a comma followed by any number of spaces. -/
def IsSep (s : List Char) : Prop := ∃ n, s = ',' :: List.replicate n ' '

/-- Three arguments. -/
def Args3 {F : Type} (num : List Char → Option F) (s : List Char) (x : F × Bool) (y : F × Bool) (z : F × Bool) : Prop :=
  ∃ t1 s1 t2 s2 t3, s = t1 ++ s1 ++ t2 ++ s2 ++ t3 ∧ IsSep s1 ∧ IsSep s2 ∧ Arg num true t1 x.1 x.2 ∧
    Arg num false t2 y.1 y.2 ∧ Arg num false t3 z.1 z.2

/-- Four arguments. -/
def Args4 {F : Type} (num : List Char → Option F) (s : List Char) (x : F × Bool) (y : F × Bool) (z : F × Bool)
    (w : F × Bool) : Prop :=
  ∃ s0 s3 t4, s = s0 ++ s3 ++ t4 ∧ Args3 num s0 x y z ∧ IsSep s3 ∧ Arg num false t4 w.1 w.2

/-- A color in functional notation. -/
inductive Func (F : Type) where
  | rgb (r g b a : F)
  | rgbPercent (r g b a : F)
  | hsl (h s l a : F)

/-- The functional notations (without the closing parenthesis). -/
inductive FuncNotation {F : Type} (num : List Char → Option F) (one : F) : List Char → Func F → Prop
  | rgb {args r g b} : Args3 num args (r, false) (g, false) (b, false) →
      FuncNotation num one ("rgb(".toList ++ args) (.rgb r g b one)
  | rgbP {args r g b} : Args3 num args (r, true) (g, true) (b, true) →
      FuncNotation num one ("rgb(".toList ++ args) (.rgbPercent r g b one)
  | rgba {args r g b a} : Args4 num args (r, false) (g, false) (b, false) (a, false) →
      FuncNotation num one ("rgba(".toList ++ args) (.rgb r g b a)
  | rgbaP {args r g b a} : Args4 num args (r, true) (g, true) (b, true) (a, false) →
      FuncNotation num one ("rgba(".toList ++ args) (.rgbPercent r g b a)
  | hsl {args h s l} : Args3 num args (h, false) (s, true) (l, true) →
      FuncNotation num one ("hsl(".toList ++ args) (.hsl h s l one)
  | hsla {args h s l a} : Args4 num args (h, false) (s, true) (l, true) (a, false) →
      FuncNotation num one ("hsla(".toList ++ args) (.hsl h s l a)

/-- The text of a component: two hexadecimal digits. -/
def hexPair (v : Nat) : List Char := (IntText.Spec.digits 16 v 2).map fun d => Char.ofNat (IntText.Spec.digitChar false d)

end Verif.CssColor.Spec
