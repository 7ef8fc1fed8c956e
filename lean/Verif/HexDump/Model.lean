import Verif.IntText.Model
/-!
Model of the hex dump: /repo/src/archon/core/hex_dump.hpp, `impl::do_hex_dump()` (lines 106-203).

Integer types and arithmetic: see Verif/Integer/Model.lean. The integer formatter with its buffer: see
Verif/IntText/Model.lean. The output is the concatenation of what is passed to `helper.write()`. Since the labels of the
function are reached by `goto`, there is one function for each of them. `std::size_t` arithmetic is modulo `M + 1`.
-/
namespace Verif.HexDump
open Verif.Integer
open Verif.IntText (ofOption)
open Verif.Buffer (Err Res)

/-- Formatting of an element: takes the element and the memory of the formatter, and gives the new memory of the formatter
and the text. -/
abbrev Format (C : Type) := Int → List C → Res (List C × List C)

/-- `uint_type`: hex_dump.hpp:113. -/
def uintType (I : Nat) (T : Ty) : Ty := unsignedOf (strong I T)

/-- `min_digits`: hex_dump.hpp:114-118. -/
def effMinDigits (I : Nat) (T : Ty) (minDigits : Int) : Res Int :=
  if minDigits ≤ 0 then do
    let mask ← ofOption (intMask I (uintType I T) T.width)
    ofOption (numDigits I (uintType I T) mask 16)
  else .ok minDigits

/-- The lambda `format`: hex_dump.hpp:125-128. `minDigits` is the result of `effMinDigits`. -/
def formatElem (I : Nat) (T : Ty) (M : Nat) (d : C) (widen : Nat → C) (minDigits : Int) : Format C := fun x mem => do
  let mask ← ofOption (intMask I (uintType I T) T.width)
  let value := bitAnd (uintType I T) (cast (uintType I T) x) mask
  Verif.IntText.format I (uintType I T) M d widen false 16 minDigits value mem

/-- Subtraction of type `std::size_t`. -/
def subSize (M a b : Nat) : Nat := (a + (M + 1) - b) % (M + 1)

/-- `unlimited_1`, and `unlimited_2` and `unlimited_3` for the elements that follow: hex_dump.hpp:191-201. `str` is
written, followed by the remaining elements. -/
def unlimited1 (fmt : Format C) (sep : List C) : (str : List C) → (rest : List Int) → (mem out : List C) → Res (List C)
  | str, [], _, out => .ok (out ++ str)
  | str, x :: rest, mem, out => do
    let (mem, str') ← fmt x mem
    unlimited1 fmt sep str' rest mem (out ++ str ++ sep)

/-- `unlimited_3`: hex_dump.hpp:197-199. `data` is what `i` refers to. Dereferencing `end` is undefined behaviour. -/
def unlimited3 (fmt : Format C) (sep : List C) (data : List Int) (mem out : List C) : Res (List C) :=
  match data with
  | [] => .error .ub
  | x :: rest => do
    let (mem, str) ← fmt x mem
    unlimited1 fmt sep str rest mem out

/-- `unlimited_2`: hex_dump.hpp:195-199. -/
def unlimited2 (fmt : Format C) (sep : List C) (data : List Int) (mem out : List C) : Res (List C) :=
  unlimited3 fmt sep data mem (out ++ sep)

/-- `look_ahead`: hex_dump.hpp:165-181. The result is the memory of the formatter, and whether line 177 is reached
rather than `ellipsis`. `rest` is what follows the element that `i` refers to. -/
def lookAhead (M : Nat) (fmt : Format C) (sep : List C) : (rest : List Int) → (size maxSize : Nat) → (mem : List C) →
    Res (List C × Bool)
  | rest, size, maxSize, mem =>
    if size > maxSize then .ok (mem, false)
    else
      match rest with
      | [] => .ok (mem, true)
      | x :: rest => do
        let (mem, str) ← fmt x mem
        if sep.length + str.length ≤ M then
          lookAhead M fmt sep rest (sep.length + str.length) (subSize M maxSize size) mem
        else .ok (mem, false)

/-- `ellipsis`: hex_dump.hpp:183-190. -/
def ellipsis (widen : Nat → C) (out : List C) : List C := out ++ List.replicate 3 (widen 46)

/-- `next`: hex_dump.hpp:146-163. `data` is what `i` refers to (not the first element). -/
def next (M : Nat) (fmt : Format C) (widen : Nat → C) (sep : List C) : (data : List Int) → (maxSize : Nat) →
    (mem out : List C) → Res (List C)
  | [], _, _, _ => .error .ub
  | x :: rest, maxSize, mem, out => do
    let (mem, str) ← fmt x mem
    if sep.length + str.length ≤ M then
      let size := sep.length + str.length
      if size ≤ subSize M maxSize 3 then
        match rest with
        | [] => .ok (out ++ sep ++ str)
        | y :: rest => next M fmt widen sep (y :: rest) (subSize M maxSize size) mem (out ++ sep ++ str)
      else do
        let (mem, fits) ← lookAhead M fmt sep rest size maxSize mem
        if fits then unlimited2 fmt sep (x :: rest) mem out else .ok (ellipsis widen out)
    else .ok (ellipsis widen out)

/-- `do_hex_dump()`: hex_dump.hpp:106-203, with the given formatting of elements and the given initial memory of the
formatter. -/
def dump (M : Nat) (fmt : Format C) (widen : Nat → C) (sep : List C) (maxSize : Nat) (data : List Int)
    (mem : List C) : Res (List C) :=
  match data with
  | [] => .ok []
  | x :: rest => do
    let (mem, str) ← fmt x mem
    if maxSize ≠ M then
      let maxSize := max maxSize 3
      let size := str.length
      if size ≤ subSize M maxSize 3 then
        match rest with
        | [] => .ok str
        | y :: rest => next M fmt widen sep (y :: rest) (subSize M maxSize size) mem str
      else do
        let (mem, fits) ← lookAhead M fmt sep rest size maxSize mem
        if fits then unlimited3 fmt sep (x :: rest) mem [] else .ok (ellipsis widen [])
    else unlimited1 fmt sep str rest mem []

/-- `do_hex_dump()`: hex_dump.hpp:106-203. -/
def hexDump (I : Nat) (T : Ty) (M : Nat) (d : C) (widen : Nat → C) (sep : List C) (minDigits : Int) (maxSize : Nat)
    (data : List Int) (mem : List C) : Res (List C) := do
  let minDigits ← effMinDigits I T minDigits
  dump M (formatElem I T M d widen minDigits) widen sep maxSize data mem

end Verif.HexDump
