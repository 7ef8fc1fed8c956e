import Verif.Integer.Model2
/-!
Model of the text form of seeds: /repo/src/archon/check/random_seed.hpp, `operator<<` and `operator>>`.

A seed is the list of its words. Streams are lists of characters; writing to a stream does not fail, and white space has
been skipped when reading begins. `I` is the number of value bits of `int`, `W` the number of bits of
`std::uint_fast64_t`.
-/
namespace Verif.RandomSeed
open Verif.Integer

/-- What is used of the locale: `widen()` and `narrow()` of the character mapper, and `ctype.is(alnum, ch)`. -/
structure Loc (C : Type) where
  widen : Nat → C
  narrow : C → Nat
  alnum : C → Bool

/-- The code of `'-'`. -/
def dash : Nat := 45

/-- `g_random_seed_base62_chars`: random_seed.hpp:196-201. -/
def base62Chars : List Nat :=
  [48, 49, 50, 51, 52, 53, 54, 55, 56, 57, 65, 66, 67, 68, 69, 70,
   71, 72, 73, 74, 75, 76, 77, 78, 79, 80, 81, 82, 83, 84, 85, 86,
   87, 88, 89, 90, 97, 98, 99, 100, 101, 102, 103, 104, 105, 106, 107, 108,
   109, 110, 111, 112, 113, 114, 115, 116, 117, 118, 119, 120, 121, 122]

/-- `random_seed_map_digit()`: random_seed.hpp:204-342. The cases of the switch statement are consecutive in each of three
ranges. -/
def mapDigit (ch : Nat) : Option Nat :=
  if 48 ≤ ch ∧ ch ≤ 57 then some (ch - 48)
  else if 65 ≤ ch ∧ ch ≤ 90 then some (ch - 65 + 10)
  else if 97 ≤ ch ∧ ch ≤ 122 then some (ch - 97 + 36)
  else none

/-- The inner loop of `format_block`: random_seed.hpp:372-375. The argument is the number of turns. The characters are
stored from the end. -/
def encodeLoop : Nat → Nat → List Nat → List Nat
  | 0, _, buf => buf
  | k + 1, value, buf => encodeLoop k (value / 62) (base62Chars.getD (value % 62) 0 :: buf)

/-- The value that is encoded: random_seed.hpp:369-371. -/
def joinWords (W : Nat) (w1 w2 : Nat) : Nat := (0 ||| (w1 <<< 0) % 2 ^ W) ||| (w2 <<< 32) % 2 ^ W

/-- `format_block`: random_seed.hpp:367-387. The argument begins with the words of the block. -/
def formatBlock (W : Nat) : List Nat → List Nat
  | a :: b :: c :: d :: e :: f :: _ =>
    encodeLoop 11 (joinWords W a b) [] ++ encodeLoop 11 (joinWords W c d) [] ++ encodeLoop 11 (joinWords W e f) []
  | _ => []

/-- The loop of `operator<<`: random_seed.hpp:391-398. The argument is the number of remaining blocks. -/
def writeLoop (L : Loc C) (W : Nat) : Nat → List Nat → List C
  | 0, _ => []
  | k + 1, seed =>
    (formatBlock W seed).map L.widen ++ (if k = 0 then [] else L.widen dash :: writeLoop L W k (seed.drop 6))

/-- `operator<<`: random_seed.hpp:359-404. `none` is a failed assertion. -/
def write (L : Loc C) (W : Nat) (seed : List Nat) : Option (List C) :=
  let numBlocks := seed.length / 6
  if seed.length ≠ numBlocks * 6 then none
  else if numBlocks > 0 then some (writeLoop L W numBlocks seed)
  else some [L.widen dash]

/-- The inner loop of `parse_block`: random_seed.hpp:421-430. The outer option is for undefined behavior, the inner one for
the return of `false`. -/
def parseLoop (I W : Nat) : List Nat → Int → Option (Option Int)
  | [], value => some (some value)
  | ch :: chs, value =>
    match mapDigit ch with
    | none => some none
    | some digit => do
      match ← tryMul I ⟨false, W⟩ (intTy I) value 62 with
      | none => some none
      | some value =>
        match ← tryAdd I ⟨false, W⟩ (intTy I) value digit with
        | none => some none
        | some value => parseLoop I W chs value

/-- One turn of the outer loop of `parse_block`: random_seed.hpp:419-438. The result is the pair of words. -/
def parseSub (I W : Nat) (chs : List Nat) : Option (Option (Nat × Nat)) := do
  match ← parseLoop I W chs 0 with
  | none => some none
  | some value => do
    let mask ← intMask I ⟨false, W⟩ 64
    if value ≥ mask then some none
    else some (some (value.toNat &&& 0xFFFFFFFF, (value.toNat >>> 32) &&& 0xFFFFFFFF))

/-- `parse_block`: random_seed.hpp:418-440. The argument has 33 elements. -/
def parseBlock (I W : Nat) (block : List Nat) : Option (Option (List Nat)) := do
  match ← parseSub I W (block.take 11) with
  | none => some none
  | some (a, b) =>
    match ← parseSub I W ((block.drop 11).take 11) with
    | none => some none
    | some (c, d) =>
      match ← parseSub I W ((block.drop 22).take 11) with
      | none => some none
      | some (e, f) => some (some [a, b, c, d, e, f])

/-- The inner loop of `operator>>`: random_seed.hpp:451-460. The first argument is the remaining input, beginning with
`ch`. The result is the contents of `block` and the remaining input. -/
def collect (L : Loc C) : List C → List Nat → List Nat × List C
  | [], block => (block, [])
  | ch :: rest, block =>
    if L.alnum ch then collect L rest (if block.length < 33 then block ++ [L.narrow ch] else block)
    else (block, ch :: rest)

/-- The outer loop of `operator>>`: random_seed.hpp:449-467. The first argument bounds the number of turns. The result is
the words, unless the operation fails, and the remaining input. -/
def readLoop [DecidableEq C] (L : Loc C) (I W : Nat) : Nat → List C → List Nat → Option (Option (List Nat) × List C)
  | 0, _, _ => none
  | fuel + 1, input, words =>
    let (block, rest) := collect L input []
    if block.length ≠ 33 then some (none, rest)
    else do
      match ← parseBlock I W block with
      | none => some (none, rest)
      | some ws =>
        let words := words ++ ws
        match rest with
        | [] => some (some words, [])
        | ch :: rest' =>
          if ch ≠ L.widen dash then some (some words, ch :: rest')
          else
            match rest' with
            | [] => some (none, [])
            | _ :: _ => readLoop L I W fuel rest' words

/-- `operator>>`: random_seed.hpp:407-472, with the constructor of `RandomSeed` (random_seed.cpp:30-36). -/
def read [DecidableEq C] (L : Loc C) (I W : Nat) (input : List C) : Option (Option (List Nat) × List C) :=
  match input with
  | [] => some (none, [])
  | ch :: rest =>
    if ch = L.widen dash then some (some [], rest)
    else do
      let (words, rest) ← readLoop L I W (input.length + 1) input []
      some (words.map fun words => words.take (words.length / 6 * 6), rest)

end Verif.RandomSeed
