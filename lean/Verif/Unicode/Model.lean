import Verif.Buffer.Model
/-
Model of /repo/src/archon/core/unicode.hpp.

Code units and code points are natural numbers, namely the value of `core::promote(T::to_int_type(c))`
(`std::char_traits` maps `char` to 0..255, and `char16_t`, `char32_t` and `wchar_t` to unsigned types). Writing
`T::to_char_type(int_type(v))` to the output stores `v`; the static assertions of the code (for example lines
1809-1810) require this conversion to be reversible for the values that are written. `int` has at least 32 bits.

The six incremental functions share one frame (for example lines 1815-1824 and 1884-1893): a loop that at each turn
looks at the remaining input and the remaining space, and then either writes some output, advances, and continues, or
sets one of the flags, or just stops. The body of each loop is a function from the remaining input and the remaining
space to a `Step`, and the frame is `incr`. The convenience functions (`_a`, `try_`, `_l` and without suffix) are
textually the same for all six codecs up to the incremental function, so they are modelled once.
-/
namespace Verif.Unicode
open Verif.Buffer (Err Res copyN expand append)

/-- What a turn of the loop of an incremental function does. -/
inductive Step where
  | emit (us : List Nat) (n : Nat)   -- `*i_2++ = ...` for each of `us`, then `i_1 += n; continue`
  | full                             -- `break` (output exhausted)
  | error                            -- `error = true; break`
  | exhausted                        -- `in_exhausted = true; break`
deriving DecidableEq, Repr

/-- Body of the loop of `encode_utf8_incr()`: unicode.hpp:1824-1888. -/
def encodeUtf8Step (rest : List Nat) (space : Nat) : Step :=
  match rest with
  | v :: _ =>
    if v < 0x80 then
      if space ≥ 1 then .emit [v] 1 else .full
    else if v < 0x800 then
      if space ≥ 2 then .emit [0xC0 + v / 0x40, 0x80 + v % 0x40] 1 else .full
    else if v < 0xFFFE then
      if v < 0xD800 ∨ v ≥ 0xE000 then
        if space ≥ 3 then .emit [0xE0 + v / 0x1000, 0x80 + v / 0x40 % 0x40, 0x80 + v % 0x40] 1 else .full
      else .error
    else if v ≥ 0x10000 then
      if v < 0x110000 then
        if space ≥ 4 then
          .emit [0xF0 + v / 0x40000, 0x80 + v / 0x1000 % 0x40, 0x80 + v / 0x40 % 0x40, 0x80 + v % 0x40] 1
        else .full
      else .error
    else .error
  | [] => .exhausted

/-- Body of the loop of `decode_utf8_incr()`: unicode.hpp:1935-2056. `reduced` is `reduced_range` (line 1910). -/
def decodeUtf8Step (reduced : Bool) (rest : List Nat) (space : Nat) : Step :=
  match rest with
  | v1 :: r =>
    if v1 < 0x80 then
      if space ≥ 1 then .emit [v1] 1 else .full
    else if v1 ≥ 0xC0 then
      if v1 < 0xE0 then
        match r with
        | v2 :: _ =>
          if v2 &&& 0xC0 = 0x80 then
            let v := ((v1 &&& 0x1F) <<< 6) ||| (v2 &&& 0x3F)
            if v ≥ 0x80 then
              if space ≥ 1 then .emit [v] 2 else .full
            else .error
          else .error
        | _ => .exhausted
      else if v1 < 0xF0 then
        match r with
        | v2 :: v3 :: _ =>
          if v2 &&& 0xC0 = 0x80 ∧ v3 &&& 0xC0 = 0x80 then
            let v := ((v1 &&& 0x0F) <<< 12) ||| ((v2 &&& 0x3F) <<< 6) ||| (v3 &&& 0x3F)
            if v ≥ 0x800 then
              if v < 0xD800 ∨ v ≥ 0xE000 then
                if v < 0xFFFE then
                  if space ≥ 1 then .emit [v] 3 else .full
                else .error
              else .error
            else .error
          else .error
        | _ => .exhausted
      else if v1 < 0xF8 then
        match r with
        | v2 :: v3 :: v4 :: _ =>
          if v2 &&& 0xC0 = 0x80 ∧ v3 &&& 0xC0 = 0x80 ∧ v4 &&& 0xC0 = 0x80 then
            let v := ((v1 &&& 0x07) <<< 18) ||| ((v2 &&& 0x3F) <<< 12) ||| ((v3 &&& 0x3F) <<< 6) ||| (v4 &&& 0x3F)
            if v ≥ 0x10000 then
              if v < 0x110000 then
                if reduced = false then
                  if space ≥ 1 then .emit [v] 4 else .full
                else .error
              else .error
            else .error
          else .error
        | _ => .exhausted
      else .error
    else .error
  | [] => .exhausted

/-- Body of the loop of `encode_utf16_incr()`: unicode.hpp:2096-2133. -/
def encodeUtf16Step (rest : List Nat) (space : Nat) : Step :=
  match rest with
  | v :: _ =>
    if v < 0xFFFE then
      if v < 0xD800 ∨ v ≥ 0xE000 then
        if space ≥ 1 then .emit [v] 1 else .full
      else .error
    else if v ≥ 0x10000 then
      if v < 0x110000 then
        if space ≥ 2 then
          let v := v - 0x10000
          .emit [0xD800 + v / 0x400, 0xDC00 + v % 0x400] 1
        else .full
      else .error
    else .error
  | [] => .exhausted

/-- Body of the loop of `decode_utf16_incr()`: unicode.hpp:2180-2230. -/
def decodeUtf16Step (reduced : Bool) (rest : List Nat) (space : Nat) : Step :=
  match rest with
  | v1 :: r =>
    if v1 < 0x10000 then
      if v1 < 0xD800 ∨ v1 ≥ 0xE000 then
        if v1 < 0xFFFE then
          if space ≥ 1 then .emit [v1] 1 else .full
        else .error
      else if v1 < 0xDC00 then
        match r with
        | v2 :: _ =>
          if v2 ≥ 0xDC00 ∧ v2 < 0xE000 then
            let v := 0x10000 + (((v1 - 0xD800) <<< 10) ||| (v2 - 0xDC00))
            if reduced = false then
              if space ≥ 1 then .emit [v] 2 else .full
            else .error
          else .error
        | _ => .exhausted
      else .error
    else .error
  | [] => .exhausted

/-- Body of the loop of `utf8_to_utf16_incr()`: unicode.hpp:2274-2391. -/
def utf8ToUtf16Step (rest : List Nat) (space : Nat) : Step :=
  match rest with
  | v1 :: r =>
    if v1 < 0x80 then
      if space ≥ 1 then .emit [v1] 1 else .full
    else if v1 ≥ 0xC0 then
      if v1 < 0xE0 then
        match r with
        | v2 :: _ =>
          if v2 &&& 0xC0 = 0x80 then
            let v := ((v1 &&& 0x1F) <<< 6) ||| (v2 &&& 0x3F)
            if v ≥ 0x80 then
              if space ≥ 1 then .emit [v] 2 else .full
            else .error
          else .error
        | _ => .exhausted
      else if v1 < 0xF0 then
        match r with
        | v2 :: v3 :: _ =>
          if v2 &&& 0xC0 = 0x80 ∧ v3 &&& 0xC0 = 0x80 then
            let v := ((v1 &&& 0x0F) <<< 12) ||| ((v2 &&& 0x3F) <<< 6) ||| (v3 &&& 0x3F)
            if v ≥ 0x800 then
              if v < 0xD800 ∨ v ≥ 0xE000 then
                if v < 0xFFFE then
                  if space ≥ 1 then .emit [v] 3 else .full
                else .error
              else .error
            else .error
          else .error
        | _ => .exhausted
      else if v1 < 0xF8 then
        match r with
        | v2 :: v3 :: v4 :: _ =>
          if v2 &&& 0xC0 = 0x80 ∧ v3 &&& 0xC0 = 0x80 ∧ v4 &&& 0xC0 = 0x80 then
            let v := ((v1 &&& 0x07) <<< 18) ||| ((v2 &&& 0x3F) <<< 12) ||| ((v3 &&& 0x3F) <<< 6) ||| (v4 &&& 0x3F)
            if v ≥ 0x10000 then
              if v < 0x110000 then
                if space ≥ 2 then
                  let v := v - 0x10000
                  .emit [0xD800 + v / 0x400, 0xDC00 + v % 0x400] 4
                else .full
              else .error
            else .error
          else .error
        | _ => .exhausted
      else .error
    else .error
  | [] => .exhausted

/-- Body of the loop of `utf16_to_utf8_incr()`: unicode.hpp:2435-2510. -/
def utf16ToUtf8Step (rest : List Nat) (space : Nat) : Step :=
  match rest with
  | v1 :: r =>
    if v1 < 0x80 then
      if space ≥ 1 then .emit [v1] 1 else .full
    else if v1 < 0x800 then
      if space ≥ 2 then .emit [0xC0 + v1 / 0x40, 0x80 + v1 % 0x40] 1 else .full
    else if v1 < 0x10000 then
      if v1 < 0xD800 ∨ v1 ≥ 0xE000 then
        if v1 < 0xFFFE then
          if space ≥ 3 then .emit [0xE0 + v1 / 0x1000, 0x80 + v1 / 0x40 % 0x40, 0x80 + v1 % 0x40] 1 else .full
        else .error
      else if v1 < 0xDC00 then
        match r with
        | v2 :: _ =>
          if v2 ≥ 0xDC00 ∧ v2 < 0xE000 then
            let v := 0x10000 + (((v1 - 0xD800) <<< 10) ||| (v2 - 0xDC00))
            if space ≥ 4 then
              .emit [0xF0 + v / 0x40000, 0x80 + v / 0x1000 % 0x40, 0x80 + v / 0x40 % 0x40, 0x80 + v % 0x40] 2
            else .full
          else .error
        | _ => .exhausted
      else .error
    else .error
  | [] => .exhausted

/-- Result of an incremental function: the final values of `in_offset`, `out` (all of it), `out_offset`,
`in_exhausted` and `error`. -/
structure State where
  i : Nat
  out : List Nat
  j : Nat
  exhausted : Bool
  error : Bool
deriving DecidableEq, Repr

/-- The loop of the incremental functions, for example unicode.hpp:1824-1889. The first argument bounds the number of
turns (each turn that continues consumes input, so `incr` gives enough); running out of it would be reported as
undefined behaviour. Writes outside the output are undefined behaviour. -/
def loop (step : List Nat → Nat → Step) (inp : List Nat) : Nat → State → Res State
  | 0, _ => .error .ub
  | fuel + 1, s =>
    match step (inp.drop s.i) (s.out.length - s.j) with
    | .emit us n => do
      let out ← copyN us 0 us.length s.out s.j
      loop step inp fuel { s with i := s.i + n, out := out, j := s.j + us.length }
    | .full => .ok s
    | .error => .ok { s with error := true }
    | .exhausted => .ok { s with exhausted := true }

/-- The incremental functions: unicode.hpp:1792-1894, 1897-2061, 2064-2138, 2141-2236, 2239-2396, 2399-2515. The
assertions are those of, for example, lines 1815-1816. -/
def incr (step : List Nat → Nat → Step) (inp out : List Nat) (i j : Nat) (exhausted error : Bool) : Res State :=
  if ¬ i ≤ inp.length then .error .abort
  else if ¬ j ≤ out.length then .error .abort
  else loop step inp (inp.length - i + 1) ⟨i, out, j, exhausted, error⟩

/-- `core::encode_utf8_incr()`: unicode.hpp:1792-1894. -/
def encodeUtf8Incr := incr encodeUtf8Step
/-- `core::decode_utf8_incr()`: unicode.hpp:1897-2061. -/
def decodeUtf8Incr (reduced : Bool) := incr (decodeUtf8Step reduced)
/-- `core::encode_utf16_incr()`: unicode.hpp:2064-2138. -/
def encodeUtf16Incr := incr encodeUtf16Step
/-- `core::decode_utf16_incr()`: unicode.hpp:2141-2236. -/
def decodeUtf16Incr (reduced : Bool) := incr (decodeUtf16Step reduced)
/-- `core::utf8_to_utf16_incr()`: unicode.hpp:2239-2396. -/
def utf8ToUtf16Incr := incr utf8ToUtf16Step
/-- `core::utf16_to_utf8_incr()`: unicode.hpp:2399-2515. -/
def utf16ToUtf8Incr := incr utf16ToUtf8Step

/-- A codec: the incremental function, whether the `_a` function has the assertions of unicode.hpp:1408 and 1411
(present in the encoders only), and what the `_l` function uses to skip and replace invalid input. -/
structure Codec where
  step : List Nat → Nat → Step
  asserts : Bool
  resync : List Nat → Nat → Nat
  replacement : List Nat

/-- The loop of the `_a` functions: unicode.hpp:1405-1418, 1462-1472, 1515-1528, 1572-1582, 1626-1636, 1682-1692.
The result is the final values of the string offset, the memory of the buffer, and the buffer offset. `M` is the
maximum value of `std::size_t`. The flags survive from one turn to the next. Each turn that continues makes the buffer
larger, which bounds the number of turns; running out of turns would be reported as undefined behaviour. -/
def aLoop (M : Nat) (c : Codec) (str : List Nat) : Nat → (i : Nat) → (mem : List Nat) → (j : Nat) →
    (exhausted error : Bool) → Res (Nat × List Nat × Nat)
  | 0, _, _, _, _, _ => .error .ub
  | fuel + 1, i, mem, j, exhausted, error => do
    let s ← incr c.step str mem i j exhausted error
    if s.exhausted then
      if c.asserts ∧ ¬ s.i = str.length then .error .abort
      else .ok (s.i, s.out, s.j)
    else if c.asserts ∧ ¬ s.i < str.length then .error .abort
    else if ¬ s.error then do
      let mem ← expand 0 s.out s.j M
      aLoop M c str fuel s.i mem s.j s.exhausted s.error
    else .ok (s.i, s.out, s.j)

/-- `core::encode_utf8_a()` (unicode.hpp:1400-1419), `core::decode_utf8_a()` (1457-1473), `core::encode_utf16_a()`
(1510-1529), `core::decode_utf16_a()` (1567-1583), `core::utf8_to_utf16_a()` (1621-1637), and
`core::utf16_to_utf8_a()` (1677-1693). -/
def convA (M : Nat) (c : Codec) (str : List Nat) (i : Nat) (mem : List Nat) (j : Nat) : Res (Nat × List Nat × Nat) :=
  aLoop M c str (M + 1 - mem.length) i mem j false false

/-- `core::try_encode_utf8()` etc.: unicode.hpp:1696-1789. The result is the memory of the buffer, the buffer offset,
and the returned value. -/
def tryConv (M : Nat) (c : Codec) (str mem : List Nat) (offset : Nat) : Res (List Nat × Nat × Bool) := do
  let (i, mem, offset2) ← convA M c str 0 mem offset
  if i = str.length then .ok (mem, offset2, true)
  else if ¬ i < str.length then .error .abort
  else .ok (mem, offset, false)

/-- `core::encode_utf8()` etc.: unicode.hpp:1364-1371, 1422-1429, 1476-1483, 1532-1539, 1586-1593, 1640-1647. `none`
means that `std::runtime_error` is thrown. -/
def conv (M : Nat) (c : Codec) (str mem : List Nat) (offset : Nat) : Res (Option (List Nat × Nat)) := do
  let (mem, offset, success) ← tryConv M c str mem offset
  if success then .ok (some (mem, offset)) else .ok none

/-- The loop of `core::resync_utf8()`: unicode.hpp:2535-2541. -/
def resyncUtf8Loop : List Nat → Nat → Nat
  | [], i => i
  | v :: rest, i => if v < 0x80 ∨ (v ≥ 0xC0 ∧ v < 0xF8) then i else resyncUtf8Loop rest (i + 1)

/-- `core::resync_utf8()`: unicode.hpp:2518-2544 (the assertion is modelled where it is used). -/
def resyncUtf8 (inp : List Nat) (i : Nat) : Nat := resyncUtf8Loop (inp.drop i) i

/-- The loop of `core::resync_utf16()`: unicode.hpp:2564-2572. -/
def resyncUtf16Loop : List Nat → Nat → Nat
  | [], i => i
  | v :: rest, i => if v < 0xDC00 ∨ v ≥ 0xE000 then i else resyncUtf16Loop rest (i + 1)

/-- `core::resync_utf16()`: unicode.hpp:2547-2575. -/
def resyncUtf16 (inp : List Nat) (i : Nat) : Nat := resyncUtf16Loop (inp.drop i) i

/-- The loop of the `_l` functions: unicode.hpp:1378-1396, 1436-1453, 1490-1506, 1546-1563, 1600-1617, 1654-1673. Note
that the replacement is appended at `offset`, not at `offset2`. Each turn that continues consumes input; running out
of turns would be reported as undefined behaviour. -/
def lLoop (M : Nat) (c : Codec) (str : List Nat) : Nat → (i : Nat) → (mem : List Nat) → (offset offset2 : Nat) →
    Res (List Nat × Nat)
  | 0, _, _, _, _ => .error .ub
  | fuel + 1, i, mem, offset, offset2 => do
    let (i, mem, offset2) ← convA M c str i mem offset2
    if i = str.length then .ok (mem, offset2)
    else if ¬ i < str.length then .error .abort
    else do
      let i := c.resync str (i + 1)
      let (mem, offset) ← append M 0 mem c.replacement offset
      lLoop M c str fuel i mem offset offset2

/-- `core::encode_utf8_l()` (unicode.hpp:1374-1397), `core::decode_utf8_l()` (1432-1454), `core::encode_utf16_l()`
(1486-1507), `core::decode_utf16_l()` (1542-1564), `core::utf8_to_utf16_l()` (1596-1618), and
`core::utf16_to_utf8_l()` (1650-1674). -/
def convL (M : Nat) (c : Codec) (str mem : List Nat) (offset : Nat) : Res (List Nat × Nat) :=
  lLoop M c str (str.length + 1) 0 mem offset offset

/-- `encode_utf8` family: unicode.hpp:1364-1419, 1696-1709, 1792-1894. There is no resynchronization. -/
def encodeUtf8 : Codec := ⟨encodeUtf8Step, true, fun _ i => i, [0xEF, 0xBF, 0xBD]⟩
/-- `decode_utf8` family: unicode.hpp:1422-1473, 1712-1725, 1897-2061. -/
def decodeUtf8 (reduced : Bool) : Codec := ⟨decodeUtf8Step reduced, false, resyncUtf8, [0xFFFD]⟩
/-- `encode_utf16` family: unicode.hpp:1476-1529, 1728-1741, 2064-2138. -/
def encodeUtf16 : Codec := ⟨encodeUtf16Step, true, fun _ i => i, [0xFFFD]⟩
/-- `decode_utf16` family: unicode.hpp:1532-1583, 1744-1757, 2141-2236. -/
def decodeUtf16 (reduced : Bool) : Codec := ⟨decodeUtf16Step reduced, false, resyncUtf16, [0xFFFD]⟩
/-- `utf8_to_utf16` family: unicode.hpp:1586-1637, 1760-1773, 2239-2396. -/
def utf8ToUtf16 : Codec := ⟨utf8ToUtf16Step, false, resyncUtf8, [0xFFFD]⟩
/-- `utf16_to_utf8` family: unicode.hpp:1640-1693, 1776-1789, 2399-2515. -/
def utf16ToUtf8 : Codec := ⟨utf16ToUtf8Step, false, resyncUtf16, [0xEF, 0xBF, 0xBD]⟩

end Verif.Unicode
