import Verif.IntText.Model
import Verif.StableSort.Model

/-!
# Model of CSS colors

Model of `/repo/src/archon/util/css_color.hpp`, `/repo/src/archon/util/css_color.cpp`,
`/repo/src/archon/util/as_css_color.hpp`, and of parts of `/repo/src/archon/util/color.hpp` and
`/repo/src/archon/util/colors.hpp`.

Values of type `char` are represented by the characters whose codes are their values as `unsigned char`. Color components of
type `int_comp_type` are natural numbers that are at most 255. Numbers of type `flt_comp_type` are elements of an
arbitrary type, with parsing, formatting, comparison, and conversion as parameters (`Env`). Failed assertions are the
outcome `none` or `Err.ub`.
-/

namespace Verif.CssColor

open Verif.Buffer (Err Res)

abbrev Str := List Char

/-! ### Colors (`util::Color`) -/

/-- `Color` (`/repo/src/archon/util/color.hpp:39-92`). -/
structure Color where
  r : Nat
  g : Nat
  b : Nat
  a : Nat
deriving DecidableEq, Repr

/-- `from_rgba()` (`/repo/src/archon/util/color.hpp:119-125`). -/
def Color.fromRgba (rgba : Nat) : Color :=
  ⟨(rgba >>> 24) &&& 0xFF, (rgba >>> 16) &&& 0xFF, (rgba >>> 8) &&& 0xFF, (rgba >>> 0) &&& 0xFF⟩

/-- `from_trgb()` (`/repo/src/archon/util/color.hpp:128-134`). -/
def Color.fromTrgb (trgb : Nat) : Color :=
  ⟨(trgb >>> 16) &&& 0xFF, (trgb >>> 8) &&& 0xFF, (trgb >>> 0) &&& 0xFF, 255 - ((trgb >>> 24) &&& 0xFF)⟩

/-- `to_rgba()` (`/repo/src/archon/util/color.hpp:137-143`). -/
def Color.toRgba (c : Color) : Nat := (c.r <<< 24) ||| (c.g <<< 16) ||| (c.b <<< 8) ||| (c.a <<< 0)

/-- `to_trgb()` (`/repo/src/archon/util/color.hpp:146-152`). -/
def Color.toTrgb (c : Color) : Nat := ((255 - c.a) <<< 24) ||| (c.r <<< 16) ||| (c.g <<< 8) ||| (c.b <<< 0)

/-- `is_opaque()` (`/repo/src/archon/util/color.hpp:183-186`). -/
def Color.isOpaque (c : Color) : Bool := c.a == 255

/-- `is_gray()` (`/repo/src/archon/util/color.hpp:189-192`). -/
def Color.isGray (c : Color) : Bool := c.r == c.g && c.r == c.b

/-! ### Named colors -/

/-- `NamedColorEntry` (`/repo/src/archon/util/css_color.cpp:118-122`). The color is represented by the argument that
is passed to `from_trgb()` where the color is defined (`/repo/src/archon/util/colors.hpp:40-186`). -/
structure Named where
  name : Str
  trgb : Nat
  css21 : Bool

/-- `g_named_colors` (`/repo/src/archon/util/css_color.cpp:125-273`). -/
def named : List Named := [
  ⟨"transparent".toList, 0xFF000000, false⟩,
  ⟨"aliceblue".toList, 0x00F0F8FF, false⟩,
  ⟨"antiquewhite".toList, 0x00FAEBD7, false⟩,
  ⟨"aqua".toList, 0x0000FFFF, true⟩,
  ⟨"aquamarine".toList, 0x007FFFD4, false⟩,
  ⟨"azure".toList, 0x00F0FFFF, false⟩,
  ⟨"beige".toList, 0x00F5F5DC, false⟩,
  ⟨"bisque".toList, 0x00FFE4C4, false⟩,
  ⟨"black".toList, 0x00000000, true⟩,
  ⟨"blanchedalmond".toList, 0x00FFEBCD, false⟩,
  ⟨"blue".toList, 0x000000FF, true⟩,
  ⟨"blueviolet".toList, 0x008A2BE2, false⟩,
  ⟨"brown".toList, 0x00A52A2A, false⟩,
  ⟨"burlywood".toList, 0x00DEB887, false⟩,
  ⟨"cadetblue".toList, 0x005F9EA0, false⟩,
  ⟨"chartreuse".toList, 0x007FFF00, false⟩,
  ⟨"chocolate".toList, 0x00D2691E, false⟩,
  ⟨"coral".toList, 0x00FF7F50, false⟩,
  ⟨"cornflowerblue".toList, 0x006495ED, false⟩,
  ⟨"cornsilk".toList, 0x00FFF8DC, false⟩,
  ⟨"crimson".toList, 0x00DC143C, false⟩,
  ⟨"cyan".toList, 0x0000FFFF, false⟩,
  ⟨"darkblue".toList, 0x0000008B, false⟩,
  ⟨"darkcyan".toList, 0x00008B8B, false⟩,
  ⟨"darkgoldenrod".toList, 0x00B8860B, false⟩,
  ⟨"darkgray".toList, 0x00A9A9A9, false⟩,
  ⟨"darkgreen".toList, 0x00006400, false⟩,
  ⟨"darkgrey".toList, 0x00A9A9A9, false⟩,
  ⟨"darkkhaki".toList, 0x00BDB76B, false⟩,
  ⟨"darkmagenta".toList, 0x008B008B, false⟩,
  ⟨"darkolivegreen".toList, 0x00556B2F, false⟩,
  ⟨"darkorange".toList, 0x00FF8C00, false⟩,
  ⟨"darkorchid".toList, 0x009932CC, false⟩,
  ⟨"darkred".toList, 0x008B0000, false⟩,
  ⟨"darksalmon".toList, 0x00E9967A, false⟩,
  ⟨"darkseagreen".toList, 0x008FBC8F, false⟩,
  ⟨"darkslateblue".toList, 0x00483D8B, false⟩,
  ⟨"darkslategray".toList, 0x002F4F4F, false⟩,
  ⟨"darkslategrey".toList, 0x002F4F4F, false⟩,
  ⟨"darkturquoise".toList, 0x0000CED1, false⟩,
  ⟨"darkviolet".toList, 0x009400D3, false⟩,
  ⟨"deeppink".toList, 0x00FF1493, false⟩,
  ⟨"deepskyblue".toList, 0x0000BFFF, false⟩,
  ⟨"dimgray".toList, 0x00696969, false⟩,
  ⟨"dimgrey".toList, 0x00696969, false⟩,
  ⟨"dodgerblue".toList, 0x001E90FF, false⟩,
  ⟨"firebrick".toList, 0x00B22222, false⟩,
  ⟨"floralwhite".toList, 0x00FFFAF0, false⟩,
  ⟨"forestgreen".toList, 0x00228B22, false⟩,
  ⟨"fuchsia".toList, 0x00FF00FF, true⟩,
  ⟨"gainsboro".toList, 0x00DCDCDC, false⟩,
  ⟨"ghostwhite".toList, 0x00F8F8FF, false⟩,
  ⟨"gold".toList, 0x00FFD700, false⟩,
  ⟨"goldenrod".toList, 0x00DAA520, false⟩,
  ⟨"gray".toList, 0x00808080, true⟩,
  ⟨"green".toList, 0x00008000, true⟩,
  ⟨"greenyellow".toList, 0x00ADFF2F, false⟩,
  ⟨"grey".toList, 0x00808080, false⟩,
  ⟨"honeydew".toList, 0x00F0FFF0, false⟩,
  ⟨"hotpink".toList, 0x00FF69B4, false⟩,
  ⟨"indianred".toList, 0x00CD5C5C, false⟩,
  ⟨"indigo".toList, 0x004B0082, false⟩,
  ⟨"ivory".toList, 0x00FFFFF0, false⟩,
  ⟨"khaki".toList, 0x00F0E68C, false⟩,
  ⟨"lavender".toList, 0x00E6E6FA, false⟩,
  ⟨"lavenderblush".toList, 0x00FFF0F5, false⟩,
  ⟨"lawngreen".toList, 0x007CFC00, false⟩,
  ⟨"lemonchiffon".toList, 0x00FFFACD, false⟩,
  ⟨"lightblue".toList, 0x00ADD8E6, false⟩,
  ⟨"lightcoral".toList, 0x00F08080, false⟩,
  ⟨"lightcyan".toList, 0x00E0FFFF, false⟩,
  ⟨"lightgoldenrodyellow".toList, 0x00FAFAD2, false⟩,
  ⟨"lightgray".toList, 0x00D3D3D3, false⟩,
  ⟨"lightgreen".toList, 0x0090EE90, false⟩,
  ⟨"lightgrey".toList, 0x00D3D3D3, false⟩,
  ⟨"lightpink".toList, 0x00FFB6C1, false⟩,
  ⟨"lightsalmon".toList, 0x00FFA07A, false⟩,
  ⟨"lightseagreen".toList, 0x0020B2AA, false⟩,
  ⟨"lightskyblue".toList, 0x0087CEFA, false⟩,
  ⟨"lightslategray".toList, 0x00778899, false⟩,
  ⟨"lightslategrey".toList, 0x00778899, false⟩,
  ⟨"lightsteelblue".toList, 0x00B0C4DE, false⟩,
  ⟨"lightyellow".toList, 0x00FFFFE0, false⟩,
  ⟨"lime".toList, 0x0000FF00, true⟩,
  ⟨"limegreen".toList, 0x0032CD32, false⟩,
  ⟨"linen".toList, 0x00FAF0E6, false⟩,
  ⟨"magenta".toList, 0x00FF00FF, false⟩,
  ⟨"maroon".toList, 0x00800000, true⟩,
  ⟨"mediumaquamarine".toList, 0x0066CDAA, false⟩,
  ⟨"mediumblue".toList, 0x000000CD, false⟩,
  ⟨"mediumorchid".toList, 0x00BA55D3, false⟩,
  ⟨"mediumpurple".toList, 0x009370DB, false⟩,
  ⟨"mediumseagreen".toList, 0x003CB371, false⟩,
  ⟨"mediumslateblue".toList, 0x007B68EE, false⟩,
  ⟨"mediumspringgreen".toList, 0x0000FA9A, false⟩,
  ⟨"mediumturquoise".toList, 0x0048D1CC, false⟩,
  ⟨"mediumvioletred".toList, 0x00C71585, false⟩,
  ⟨"midnightblue".toList, 0x00191970, false⟩,
  ⟨"mintcream".toList, 0x00F5FFFA, false⟩,
  ⟨"mistyrose".toList, 0x00FFE4E1, false⟩,
  ⟨"moccasin".toList, 0x00FFE4B5, false⟩,
  ⟨"navajowhite".toList, 0x00FFDEAD, false⟩,
  ⟨"navy".toList, 0x00000080, true⟩,
  ⟨"oldlace".toList, 0x00FDF5E6, false⟩,
  ⟨"olive".toList, 0x00808000, true⟩,
  ⟨"olivedrab".toList, 0x006B8E23, false⟩,
  ⟨"orange".toList, 0x00FFA500, true⟩,
  ⟨"orangered".toList, 0x00FF4500, false⟩,
  ⟨"orchid".toList, 0x00DA70D6, false⟩,
  ⟨"palegoldenrod".toList, 0x00EEE8AA, false⟩,
  ⟨"palegreen".toList, 0x0098FB98, false⟩,
  ⟨"paleturquoise".toList, 0x00AFEEEE, false⟩,
  ⟨"palevioletred".toList, 0x00DB7093, false⟩,
  ⟨"papayawhip".toList, 0x00FFEFD5, false⟩,
  ⟨"peachpuff".toList, 0x00FFDAB9, false⟩,
  ⟨"peru".toList, 0x00CD853F, false⟩,
  ⟨"pink".toList, 0x00FFC0CB, false⟩,
  ⟨"plum".toList, 0x00DDA0DD, false⟩,
  ⟨"powderblue".toList, 0x00B0E0E6, false⟩,
  ⟨"purple".toList, 0x00800080, true⟩,
  ⟨"red".toList, 0x00FF0000, true⟩,
  ⟨"rosybrown".toList, 0x00BC8F8F, false⟩,
  ⟨"royalblue".toList, 0x004169E1, false⟩,
  ⟨"saddlebrown".toList, 0x008B4513, false⟩,
  ⟨"salmon".toList, 0x00FA8072, false⟩,
  ⟨"sandybrown".toList, 0x00F4A460, false⟩,
  ⟨"seagreen".toList, 0x002E8B57, false⟩,
  ⟨"seashell".toList, 0x00FFF5EE, false⟩,
  ⟨"sienna".toList, 0x00A0522D, false⟩,
  ⟨"silver".toList, 0x00C0C0C0, true⟩,
  ⟨"skyblue".toList, 0x0087CEEB, false⟩,
  ⟨"slateblue".toList, 0x006A5ACD, false⟩,
  ⟨"slategray".toList, 0x00708090, false⟩,
  ⟨"slategrey".toList, 0x00708090, false⟩,
  ⟨"snow".toList, 0x00FFFAFA, false⟩,
  ⟨"springgreen".toList, 0x0000FF7F, false⟩,
  ⟨"steelblue".toList, 0x004682B4, false⟩,
  ⟨"tan".toList, 0x00D2B48C, false⟩,
  ⟨"teal".toList, 0x00008080, true⟩,
  ⟨"thistle".toList, 0x00D8BFD8, false⟩,
  ⟨"tomato".toList, 0x00FF6347, false⟩,
  ⟨"turquoise".toList, 0x0040E0D0, false⟩,
  ⟨"violet".toList, 0x00EE82EE, false⟩,
  ⟨"wheat".toList, 0x00F5DEB3, false⟩,
  ⟨"white".toList, 0x00FFFFFF, true⟩,
  ⟨"whitesmoke".toList, 0x00F5F5F5, false⟩,
  ⟨"yellow".toList, 0x00FFFF00, true⟩]

/-- Comparison of two objects of type `std::string_view` using `operator<()`. -/
def strLt : Str → Str → Bool
  | _, [] => false
  | [], _ :: _ => true
  | x :: s, y :: t => if x.toNat < y.toNat then true else if y.toNat < x.toNat then false else strLt s t

/-- `to_rgba()` (`/repo/src/archon/util/css_color.cpp:61-67`). -/
def toRgba (r g b a : Nat) : Nat := (r <<< 24) ||| (g <<< 16) ||| (b <<< 8) ||| (a <<< 0)

/-- `name_map` (`/repo/src/archon/util/css_color.cpp:295-303`). -/
def nameMap : Option (List (Str × Nat)) :=
  StableSort.stableSort (fun a b => strLt a.1 b.1) (named.mapIdx fun i e => (e.name, i))

/-- `value_map` (`/repo/src/archon/util/css_color.cpp:305-316`). -/
def valueMap : Option (List (Nat × Nat)) :=
  StableSort.stableSort (fun a b => decide (a.1 < b.1)) (named.mapIdx fun i e =>
    let color := Color.fromTrgb e.trgb
    (toRgba color.r color.g color.b color.a, i))

/-- The position that is returned by `std::lower_bound()`, for a range that is partitioned with respect to the
predicate, that is, where all elements that satisfy the predicate come before all others. -/
def lowerBound {α : Type} (pred : α → Bool) (l : List α) : Nat := (l.takeWhile pred).length

/-- `find_named_color_by_name()` (`/repo/src/archon/util/css_color.cpp:655-667`). The inner option is `none` if there is
no such color. -/
def findByName (name : Str) : Option (Option Nat) := do
  let map ← nameMap
  match map[lowerBound (fun a => strLt a.1 name) map]? with
  | none => some none
  | some (n, index) => if n = name then some (some index) else some none

/-- `find_named_color_by_value()` (`/repo/src/archon/util/css_color.cpp:670-683`). -/
def findByValue (c : Color) : Option (Option Nat) := do
  let map ← valueMap
  let value := toRgba c.r c.g c.b c.a
  match map[lowerBound (fun a => decide (a.1 < value)) map]? with
  | none => some none
  | some (v, index) => if v = value then some (some index) else some none

/-- `get_named_color()` (`/repo/src/archon/util/css_color.cpp:648-652`). -/
def getNamedColor (index : Nat) : Option Color := (named[index]?).map fun e => Color.fromTrgb e.trgb

/-! ### Formatting -/

/-- `CssColor` (`/repo/src/archon/util/css_color.hpp:127-136`): form and contents. -/
inductive Css (F : Type) where
  | hex (c : Color)
  | name (index : Nat)
  | rgb (r g b a : F)
  | rgbP (r g b a : F)
  | hsl (h s l a : F)
deriving DecidableEq, Repr

/-- The environment: numbers of value bits in `int` and `rgba_type`, the maximum value of `std::size_t`, the initial
memory of the integer formatter, and operations on numbers of type `flt_comp_type`: parsing by `core::ValueParser`,
formatting by means of `%s`, comparison with 1 (`a >= 1`), and the number 1. -/
structure Env (F : Type) where
  I : Nat
  W : Nat
  M : Nat
  mem : Str
  num : Str → Option F
  text : F → Str
  geOne : F → Bool
  one : F

variable {F : Type}

/-- `format_hex()` (`/repo/src/archon/util/css_color.cpp:328-379`). -/
def formatHex (e : Env F) (c : Color) (disableShort lower : Bool) : Res Str :=
  let fullyOpaque := decide (c.a ≥ 255)
  let collapsible := !disableShort && decide (c.r >>> 4 = c.r &&& 0x0F) && decide (c.g >>> 4 = c.g &&& 0x0F) &&
    decide (c.b >>> 4 = c.b &&& 0x0F) && decide (c.a >>> 4 = c.a &&& 0x0F)
  let (value, n) : Nat × Int :=
    if collapsible then
      if fullyOpaque then
        ((c.r &&& 0x0F) <<< 8 ||| (c.g &&& 0x0F) <<< 4 ||| (c.b &&& 0x0F) <<< 0, 3)
      else
        ((c.r &&& 0x0F) <<< 12 ||| (c.g &&& 0x0F) <<< 8 ||| (c.b &&& 0x0F) <<< 4 ||| (c.a &&& 0x0F) <<< 0, 4)
    else
      if fullyOpaque then
        (c.r <<< 16 ||| c.g <<< 8 ||| c.b <<< 0, 6)
      else
        (c.r <<< 24 ||| c.g <<< 16 ||| c.b <<< 8 ||| c.a <<< 0, 8)
  do
    let (_, string) ← IntText.format e.I ⟨false, e.W⟩ e.M ' ' Char.ofNat lower 16 n value e.mem
    .ok (['#'] ++ string)

/-- `format_name()` (`/repo/src/archon/util/css_color.cpp:382-394`), without conversion to upper case. -/
def formatName (index : Nat) : Res Str :=
  match named[index]? with
  | none => .error .ub
  | some e => .ok e.name

/-- `format_rgb()` (`/repo/src/archon/util/css_color.cpp:397-452`), with lower case label and with space after comma. -/
def formatRgb (e : Env F) (r g b a : F) (percent : Bool) : Str :=
  if e.geOne a then
    let label := "rgb".toList
    if !percent then
      label ++ "(".toList ++ e.text r ++ ", ".toList ++ e.text g ++ ", ".toList ++ e.text b ++ ")".toList
    else
      label ++ "(".toList ++ e.text r ++ "%, ".toList ++ e.text g ++ "%, ".toList ++ e.text b ++ "%)".toList
  else
    let label := "rgba".toList
    if !percent then
      label ++ "(".toList ++ e.text r ++ ", ".toList ++ e.text g ++ ", ".toList ++ e.text b ++ ", ".toList ++
        e.text a ++ ")".toList
    else
      label ++ "(".toList ++ e.text r ++ "%, ".toList ++ e.text g ++ "%, ".toList ++ e.text b ++ "%, ".toList ++
        e.text a ++ ")".toList

/-- `format_hsl()` (`/repo/src/archon/util/css_color.cpp:456-492`), with lower case label and with space after comma. -/
def formatHsl (e : Env F) (h s l a : F) : Str :=
  if e.geOne a then
    let label := "hsl".toList
    label ++ "(".toList ++ e.text h ++ ", ".toList ++ e.text s ++ "%, ".toList ++ e.text l ++ "%)".toList
  else
    let label := "hsla".toList
    label ++ "(".toList ++ e.text h ++ ", ".toList ++ e.text s ++ "%, ".toList ++ e.text l ++ "%, ".toList ++
      e.text a ++ ")".toList

/-- `format()` (`/repo/src/archon/util/css_color.cpp:692-725`). The text is represented instead of being added to a
buffer. -/
def format (e : Env F) (c : Css F) (disableShort : Bool) : Res Str :=
  let lowercaseHex := false
  match c with
  | .hex c => formatHex e c disableShort lowercaseHex
  | .name index => formatName index
  | .rgb r g b a => .ok (formatRgb e r g b a false)
  | .rgbP r g b a => .ok (formatRgb e r g b a true)
  | .hsl h s l a => .ok (formatHsl e h s l a)

/-! ### Parsing -/

/-- The loop that skips spaces after a comma (`/repo/src/archon/util/css_color.cpp:511-518`). -/
def skipSpaces : Str → Str
  | [] => []
  | ch :: rest => if ch = ' ' then skipSpaces rest else ch :: rest

/-- The loop that finds the end of an argument (`/repo/src/archon/util/css_color.cpp:529-536`). Returns the
argument, and the rest of the string. -/
def splitArg : Str → Str × Str
  | [] => ([], [])
  | ch :: rest =>
    if ch ≠ '%' ∧ ch ≠ ',' then
      let (arg, rest) := splitArg rest
      (ch :: arg, rest)
    else ([], ch :: rest)

/-- The part of `ArgsParser::parse()` that starts at the label `arg` (`/repo/src/archon/util/css_color.cpp:526-551`). Returns
the number, whether it is a percentage, and the rest of the string. -/
def parseNum (e : Env F) (p : Str) : Option (F × Bool × Str) :=
  let (str, p) := splitArg p
  match e.num str with
  | none => none
  | some var =>
    match p with
    | [] => some (var, false, [])
    | ch :: rest => if ch ≠ '%' then some (var, false, ch :: rest) else some (var, true, rest)

/-- `ArgsParser::parse()` (`/repo/src/archon/util/css_color.cpp:505-552`). `size` is the size of the argument string, and
`curr` is the part that remains of it. -/
def parseArg (e : Env F) (size : Nat) (curr : Str) : Option (F × Bool × Str) :=
  match curr with
  | [] => none
  | ch :: rest =>
    if (ch :: rest).length ≠ size then
      if ch = ',' then
        match skipSpaces rest with
        | [] => none
        | p => parseNum e p
      else none
    else parseNum e (ch :: rest)

/-- The calls to `ArgsParser::parse()` and `ArgsParser::at_end()` in `parse_rgb_args()` and `parse_hsl_args()`
(`/repo/src/archon/util/css_color.cpp:569-576`, `595-602`). Returns the four numbers, and whether they are percentages. -/
def parseArgs (e : Env F) (args : Str) (withAlpha : Bool) : Option ((F × Bool) × (F × Bool) × (F × Bool) × (F × Bool)) := do
  let (x, xPer, curr) ← parseArg e args.length args
  let (y, yPer, curr) ← parseArg e args.length curr
  let (z, zPer, curr) ← parseArg e args.length curr
  let (a, aPer, curr) ← if !withAlpha then some (e.one, false, curr) else parseArg e args.length curr
  if curr = [] then some ((x, xPer), (y, yPer), (z, zPer), (a, aPer)) else none

/-- `parse_rgb_args()` (`/repo/src/archon/util/css_color.cpp:567-590`). -/
def parseRgbArgs (e : Env F) (args : Str) (withAlpha : Bool) : Option (Css F) := do
  let ((r, rPer), (g, gPer), (b, bPer), (a, aPer)) ← parseArgs e args withAlpha
  if gPer = rPer ∧ bPer = rPer ∧ !aPer then
    if !rPer then some (.rgb r g b a) else some (.rgbP r g b a)
  else none

/-- `parse_hsl_args()` (`/repo/src/archon/util/css_color.cpp:593-612`). -/
def parseHslArgs (e : Env F) (args : Str) (withAlpha : Bool) : Option (Css F) := do
  let ((h, hPer), (s, sPer), (l, lPer), (a, aPer)) ← parseArgs e args withAlpha
  if !hPer ∧ sPer ∧ lPer ∧ !aPer then some (.hsl h s l a) else none

/-- The contents of `buffer` for the hex form (`/repo/src/archon/util/css_color.cpp:739-765`), given what follows the
number sign. -/
def hexBuffer : Str → Option Str
  | [x, y, z] => some [x, x, y, y, z, z, 'F', 'F']
  | [x, y, z, w] => some [x, x, y, y, z, z, w, w]
  | [x, x', y, y', z, z'] => some [x, x', y, y', z, z', 'F', 'F']
  | [x, x', y, y', z, z', w, w'] => some [x, x', y, y', z, z', w, w']
  | _ => none

/-- The hex form (`/repo/src/archon/util/css_color.cpp:739-780`). -/
def parseHex (e : Env F) (s : Str) : Option (Option (Css F)) :=
  match hexBuffer s with
  | none => some none
  | some buffer =>
    match IntText.parse e.I ⟨false, e.W⟩ Char.toNat 16 .reject buffer 0 with
    | none => none
    | some (false, _) => some none
    | some (true, value) =>
      let value := value.toNat
      let r := (value >>> (3 * 8)) &&& 0xFF
      let g := (value >>> (2 * 8)) &&& 0xFF
      let b := (value >>> (1 * 8)) &&& 0xFF
      let a := (value >>> (0 * 8)) &&& 0xFF
      some (some (.hex ⟨r, g, b, a⟩))

/-- The loop that finds the opening parenthesis (`/repo/src/archon/util/css_color.cpp:789-803`). `s` is the part of the string
that starts at position `i` and ends before the closing parenthesis. Returns the label, and what follows the
opening parenthesis. -/
def findParen : Str → Option (Str × Str)
  | [] => none
  | ch :: rest =>
    if ch ≠ '(' then do
      let (label, args) ← findParen rest
      some (ch :: label, args)
    else some ([], rest)

/-- The functional forms (`/repo/src/archon/util/css_color.cpp:789-822`), given what precedes the closing
parenthesis. -/
def parseFunc (e : Env F) (s : Str) : Option (Css F) :=
  match findParen s with
  | none => none
  | some (label, args) =>
    if label = "rgb".toList ∨ label = "rgba".toList then parseRgbArgs e args (label = "rgba".toList)
    else if label = "hsl".toList ∨ label = "hsla".toList then parseHslArgs e args (label = "hsla".toList)
    else none

/-- The check for a named color (`/repo/src/archon/util/css_color.cpp:826-833`). -/
def parseName (s : Str) : Option (Option (Css F)) := do
  match ← findByName s with
  | none => some none
  | some index => some (some (.name index))

/-- `parse()` (`/repo/src/archon/util/css_color.cpp:728-834`). The inner option is `none` if parsing fails, in which case
the color is left unchanged. -/
def parse (e : Env F) (s : Str) : Option (Option (Css F)) :=
  match s with
  | [] => parseName s
  | ch :: rest =>
    if ch = '#' then parseHex e rest
    else if s.getLast? = some ')' then some (parseFunc e s.dropLast)
    else parseName s

/-! ### Formatting and parsing of colors (`as_css_color()`) -/

/-- The second part of the output operator (`/repo/src/archon/util/as_css_color.hpp:77-101`): `found` is the result of the search
for a name. `widen` maps characters to the character type of the stream. -/
def outputFound {C : Type} (e : Env F) (widen : Char → C) (c : Color) (found : Option (Option Nat)) : Res (List C) :=
  match found with
  | none => .error .ub
  | some found => do
    let css : Css F := match found with
      | some index => .name index
      | none => .hex c
    let string ← format e css true
    .ok (string.map widen)

/-- The text that is written by the output operator (`/repo/src/archon/util/as_css_color.hpp:75-101`). -/
def output {C : Type} (e : Env F) (widen : Char → C) (c : Color) : Res (List C) := outputFound e widen c (findByValue c)

/-- `get_as_hex()` (`/repo/src/archon/util/css_color.cpp:629-645`). The function `toHex` converts colors of the functional
forms. -/
def getAsHex (toHex : Css F → Color) : Css F → Option Color
  | .hex c => some c
  | .name index => getNamedColor index
  | c => some (toHex c)

/-- `parse_value()` (`/repo/src/archon/util/as_css_color.hpp:104-119`). `narrow` maps characters of the string to
narrow characters, or to the null character. -/
def parseValue {C : Type} (e : Env F) (toHex : Css F → Color) (narrow : C → Char) (s : List C) : Option (Option Color) :=
  match parse e (s.map narrow) with
  | none => none
  | some none => some none
  | some (some css) =>
    match getAsHex toHex css with
    | none => none
    | some c => some (some c)

end Verif.CssColor
