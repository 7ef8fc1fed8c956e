import Verif.AsInt.Model
import Verif.Format.Model
/-!
Model of /repo/src/archon/font/code_point.hpp: code points, and ranges of code points, of fonts.

`W` is the width of `wchar_t`, which is taken to be signed, and of `std::wint_t`, which is taken to be unsigned, as is the case on
Linux. `I` is the number of value bits of `int`. A code point is the integer that is stored in it. The field width of the output stream is
zero. `none` as a result is undefined behavior.
-/
namespace Verif.CodePoint
open Verif.Integer

/-- `CodePoint::int_type`: code_point.hpp:45. -/
def intType (W : Nat) : Ty := ⟨false, W⟩

/-- `std::char_traits<wchar_t>::to_char_type()`: code_point.hpp:99 and 105. -/
def toCharType (W : Nat) (val : Int) : Int := if val < 2 ^ (W - 1) then val else val - 2 ^ W

/-- `std::char_traits<wchar_t>::to_int_type()`: code_point.hpp:106 and 117. -/
def toIntType (W : Nat) (ch : Int) : Int := if ch < 0 then ch + 2 ^ W else ch

/-- `std::char_traits<wchar_t>::eof()`, which is `WEOF`: code_point.hpp:106 and 118. -/
def eof (W : Nat) : Int := 2 ^ W - 1

/-- `CodePoint::to_char()`: code_point.hpp:97-100. -/
def toChar (W : Nat) (cp : Int) : Int := toCharType W cp

/-- `CodePoint::try_from_int()`: code_point.hpp:103-112. The result is the returned value, and the code point afterwards. -/
def tryFromInt (W : Nat) (cp val : Int) : Bool × Int :=
  let ch := toCharType W val
  let valid := ¬ val < 0 ∧ toIntType W ch = val ∧ val ≠ eof W
  if valid then (true, val) else (false, cp)

/-- `CodePoint::try_from_char()`: code_point.hpp:115-124. -/
def tryFromChar (W : Nat) (cp ch : Int) : Bool × Int :=
  let val := toIntType W ch
  let valid := val ≠ eof W
  if valid then (true, val) else (false, cp)

/-- `operator<<()` for `CodePoint`: code_point.hpp:127-131. `M` and `mem` are as for `AsInt.format`. -/
def format (I W M : Nat) (mem : List Char) (cp : Int) : Option (List Char) := AsInt.format I (intType W) M 10 1 mem cp

/-- `parse_value()` for `CodePoint`: code_point.hpp:134-141. -/
def parse (I W : Nat) (s : List Char) (cp : Int) : Option (Bool × Int) := do
  let (success, val) ← AsInt.parse I (intType W) 10 s 0
  if success then some (tryFromInt W cp val)
  else some (false, cp)

/-- `operator<<()` for `CodePointRange`: code_point.hpp:170-176. A range is its first and its last code point. -/
def formatRange (I W M : Nat) (mem : List Char) (range : Int × Int) : Option (List Char) :=
  if range.2 > range.1 then do
    let first ← format I W M mem range.1
    let last ← format I W M mem range.2
    match Format.formatted 0 "%s-%s".toList [first, last] with
    | (text, none) => some text
    | (_, some _) => none
  else format I W M mem range.1

/-- `parse_value()` for `CodePointRange`: code_point.hpp:179-202. The result is the returned value, and the range afterwards. -/
def parseRange (I W : Nat) (str : List Char) (range : Int × Int) : Option (Bool × Int × Int) :=
  match str.findIdx? (· == '-') with
  | some i => do
    let (success, first) ← parse I W (str.take i) 0
    if success then
      let (success, last) ← parse I W (str.drop (i + 1)) 0
      if success then
        if first ≤ last then some (true, first, last) else some (false, range)
      else some (false, range)
    else some (false, range)
  | none => do
    let (success, cp) ← parse I W str 0
    if success then some (true, cp, cp) else some (false, range)

end Verif.CodePoint
