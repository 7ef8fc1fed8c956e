import Verif.PixelSize.Model
/-!
Model of formatting and parsing of integers by way of `core::as_int()`, `core::as_flex_int()`, and `core::as_flex_int_h()`:
/repo/src/archon/core/as_int.hpp, with stream input as in /repo/src/archon/core/stream_input.hpp.

`I` is the number of value bits of `int`, and `T` is the type of the integer. Characters are those of type `char`, and they are taken to be
ASCII characters (`PixelSize.narrow`). `none` as a result is undefined behavior. Exceptions are not modelled.
-/
namespace Verif.AsInt
open Verif.Integer Verif.PixelSize

/-- The text that is written for a result of the formatter (see `IntText.format`). -/
def text (r : Verif.Buffer.Res (List Char × List Char)) : Option (List Char) :=
  match r with
  | .ok (_, s) => some s
  | .error _ => none

/-- `operator<<()` for `AsInt`: as_int.hpp:149-161. `M` is the maximum size of the buffer of the formatter, and `mem` is the initial contents of
it. -/
def format (I : Nat) (T : Ty) (M radix : Nat) (minDigits : Int) (mem : List Char) (v : Int) : Option (List Char) :=
  text (IntText.format I T M ' ' Char.ofNat false radix minDigits v mem)

/-- `parse_value()` for `AsInt`: as_int.hpp:207-218. The result is the returned value, and the integer afterwards. -/
def parse (I : Nat) (T : Ty) (radix : Nat) (s : List Char) (var : Int) : Option (Bool × Int) := IntText.parse I T narrow radix .auto_ s var

/-- `operator<<()` for `AsFlexInt`: as_int.hpp:227-239. -/
def formatFlex (I : Nat) (T : Ty) (M : Nat) (mem : List Char) (asHex : Bool) (v : Int) : Option (List Char) :=
  if !asHex then format I T M 10 1 mem v
  else (format I T M 16 1 mem v).map (['0', 'x'] ++ ·)

/-- `parse_value()` for `AsFlexInt`: as_int.hpp:242-255. -/
def parseFlex (I : Nat) (T : Ty) (s : List Char) (var : Int) : Option (Bool × Int) :=
  let isDec := s.length < 1 ∨ s[0]? ≠ some '0'
  if isDec then parse I T 10 s var
  else
    let isOct := s.length < 2 ∨ (s[1]? ≠ some 'x' ∧ s[1]? ≠ some 'X')
    if isOct then parse I T 8 s var
    else parse I T 16 (s.drop 2) var

/-! ### Stream input -/

/-- An input stream: the characters that remain, whether `std::ios_base::skipws` is set, and the state bits `eofbit` and `failbit`. `badbit`
is never set. -/
structure Stream where
  data : List Char
  skipws : Bool
  eof : Bool
  fail : Bool
deriving DecidableEq, Repr

/-- The classification of characters by the locale of the stream. -/
structure Locale where
  space : Char → Bool
  alnum : Char → Bool

/-- Construction of `std::basic_istream::sentry`, as specified by the C++ standard, when there is no tied stream: stream_input.hpp:132. The
result is the value of the sentry object, and the stream afterwards. -/
def sentry (loc : Locale) (s : Stream) : Bool × Stream :=
  if !s.eof && !s.fail then
    if s.skipws then
      let data := s.data.dropWhile loc.space
      if data = [] then (false, { s with data := [], eof := true, fail := true }) else (true, { s with data := data })
    else (true, s)
  else (false, { s with fail := true })

/-- The state of `BasicStreamInputHelper` together with that of the buffer of characters: stream_input.hpp:116-117, as_int.hpp:174-175. -/
structure Helper where
  data : List Char
  endOfInput : Bool
  buffer : List Char
deriving DecidableEq, Repr

/-- `BasicStreamInputHelper::peek()`: stream_input.hpp:151-161. The result is the character, if there is one. -/
def Helper.peek (h : Helper) : Option Char × Helper :=
  match h.data with
  | c :: _ => (some c, h)
  | [] => (none, { h with endOfInput := true })

/-- `BasicStreamInputHelper::next()`: stream_input.hpp:174-184. -/
def Helper.next (h : Helper) : Option Char × Helper :=
  match h.data.drop 1 with
  | c :: rest => (some c, { h with data := c :: rest })
  | [] => (none, { h with data := [], endOfInput := true })

/-- The inner loop of `operator>>()` for `AsInt`: as_int.hpp:185-191. The number of rounds is bounded by `fuel`. -/
def inner (loc : Locale) : (fuel : Nat) → (ch : Char) → Helper → Helper
  | 0, _, h => h
  | fuel + 1, ch, h =>
    if !loc.alnum ch && ch != '_' then h
    else
      match ({ h with buffer := h.buffer ++ [ch] } : Helper).next with
      | (none, h) => h
      | (some ch, h) => inner loc fuel ch h

/-- The outer loop of `operator>>()` for `AsInt`, which is executed once: as_int.hpp:177-193. -/
def outer (loc : Locale) (h : Helper) : Helper :=
  let fuel := h.data.length
  match h.peek with
  | (none, h) => h
  | (some ch, h) =>
    if ch = '-' then
      match ({ h with buffer := h.buffer ++ [ch] } : Helper).next with
      | (none, h) => h
      | (some ch, h) => inner loc fuel ch h
    else inner loc fuel ch h

/-- `operator>>()` for `AsInt`: as_int.hpp:164-204, with `istream_sentry()`: stream_input.hpp:129-148. The result is the stream afterwards, and
the integer afterwards. -/
def extract (I : Nat) (T : Ty) (radix : Nat) (loc : Locale) (s : Stream) (var : Int) : Option (Stream × Int) :=
  match sentry loc s with
  | (false, s) => some (s, var)
  | (true, s) =>
    let h := outer loc ⟨s.data, false, []⟩
    match parse I T radix h.buffer var with
    | none => none
    | some (success, var) => some ({ s with data := h.data, eof := s.eof || h.endOfInput, fail := s.fail || !success }, var)

/-- Extraction of several integers, one at a time. `var` is the initial value of all of the variables. -/
def extractAll (I : Nat) (T : Ty) (radix : Nat) (loc : Locale) : (n : Nat) → (var : Int) → Stream → Option (Stream × List Int)
  | 0, _, s => some (s, [])
  | n + 1, var, s => do
    let (s, v) ← extract I T radix loc s var
    let (s, vs) ← extractAll I T radix loc n var s
    some (s, v :: vs)

end Verif.AsInt
