import Mathlib.Order.Defs.LinearOrder
/-!
Model of `quoted()` and its variations: /repo/src/archon/core/quote.hpp.

A character is represented by the number that its bit pattern represents when it is interpreted as an unsigned integer. Widening of
the basic characters is taken to be ASCII. The character classes, and narrowing, are parameters. A comparison such as `i[1] < zero ||
i[1] > seven` has the same outcome with unsigned numbers, even if the character type is signed. `none` stands for undefined behavior
or failed assertion.
-/
namespace Verif.Quote

/-- What is known about characters: the character classes, the narrowing function, the quotation character, and the largest value of
`std::size_t`. -/
structure Env where
  isPrint : Nat → Bool
  isSpace : Nat → Bool
  isXdigit : Nat → Bool
  narrow : Nat → Nat
  quote : Nat
  sizeMax : Nat

/-- `bslash`: quote.hpp:203. -/
def bslash : Nat := 92

/-- `ellipsis`: quote.hpp:204. -/
def ellipsis : List Nat := [46, 46, 46]

/-- The loop of the integer formatter (integer_formatter.hpp:308-333 for nonnegative values; see `Verif.IntText` for a detailed
model). The first argument bounds the number of turns. The list is what has been produced so far. -/
def formatLoop (radix minDigits : Nat) : Nat → Nat → List Nat → List Nat
  | 0, _, str => str
  | k + 1, val, str =>
    if val ≠ 0 ∨ str.length < minDigits then
      let d := val % radix
      formatLoop radix minDigits k (val / radix) ((if d < 10 then 48 + d else 87 + d) :: str)
    else str

/-- `format_oct()` and `format_hex()`: integer_formatter.hpp:264-277. -/
def format (radix val minDigits : Nat) : List Nat := formatLoop radix minDigits (val + minDigits) val []

/-- The `find` function: quote.hpp:216-233. -/
def find (env : Env) : Bool → List Nat → Nat
  | _, [] => 0
  | followsHex, ch :: rest =>
    let requiresEscaping := ch = env.quote ∨ ch = bslash ∨ ¬ env.isPrint ch ∨ (followsHex ∧ env.isXdigit ch)
    if ¬ env.isSpace ch ∧ ¬ requiresEscaping then 1 + find env false rest else 0

/-- What `render` does at `numeric`: quote.hpp:278-300. The second argument is the next character. The result is the appended text
and the new value of `follows_hex`. -/
def renderNumeric (ch : Nat) (next : Option Nat) : List Nat × Bool :=
  if ch < 512 then
    let minDigits := match next with
      | none => 1
      | some c => if c < 48 ∨ c > 55 then 1 else 3
    (bslash :: format 8 ch minDigits, false)
  else (bslash :: 120 :: format 16 ch 1, true)

/-- What `render` does with a character that is not handled by the first part: quote.hpp:244-270. -/
def renderSpecial (env : Env) (ch : Nat) (next : Option Nat) : List Nat × Bool :=
  match env.narrow ch with
  | 7 => ([bslash, 97], false)
  | 8 => ([bslash, 98], false)
  | 9 => ([bslash, 116], false)
  | 10 => ([bslash, 110], false)
  | 11 => ([bslash, 118], false)
  | 12 => ([bslash, 102], false)
  | 13 => ([bslash, 114], false)
  | _ => renderNumeric ch next

/-- The text that `render` appends to the buffer, and the new value of `follows_hex`: quote.hpp:235-301. -/
def renderChar (env : Env) (followsHex : Bool) (ch : Nat) (next : Option Nat) : List Nat × Bool :=
  if env.isPrint ch ∧ (¬ followsHex ∨ ¬ env.isXdigit ch) then
    if ch ≠ env.quote ∧ ch ≠ bslash then ([ch], false) else ([bslash, ch], false)
  else renderSpecial env ch next

/-- The variables that are changed by `render`: the buffer and `follows_hex`. -/
structure Rend where
  buffer : List Nat
  followsHex : Bool

/-- The `render` function: quote.hpp:235-301. -/
def render (env : Env) (s : List Nat) (i : Nat) (r : Rend) : Option Rend := do
  let ch ← s[i]?
  let (text, fh) := renderChar env r.followsHex ch s[i + 1]?
  some ⟨r.buffer ++ text, fh⟩

/-- The substring at a specified position of a specified size. -/
def sub (s : List Nat) (pos n : Nat) : Option (List Nat) := if pos + n ≤ s.length then some ((s.drop pos).take n) else none

/-- The loop at `render_more`: quote.hpp:448-455. The first argument bounds the number of turns. The result is the contents of the
buffer, or nothing if it is too large. -/
def renderMore (env : Env) (s : List Nat) (n2 : Nat) : Nat → Nat → Rend → Option (Option (List Nat))
  | 0, _, _ => none
  | k + 1, i1, r =>
    if r.buffer.length > n2 then some none
    else if i1 + 1 ≠ s.length then do renderMore env s n2 k (i1 + 1) (← render env s (i1 + 1) r)
    else some (some r.buffer)

/-- What is written from `render_more` on: quote.hpp:448-458, 415-418 and 464-467. -/
def finish (env : Env) (s : List Nat) (n2 i1 : Nat) (r : Rend) : Option (List Nat) := do
  match ← renderMore env s n2 (s.length - i1) i1 r with
  | some buffer => some (buffer ++ [env.quote])
  | none => some (ellipsis ++ [env.quote])

/-- The limits: quote.hpp:303-308. -/
structure Limits where
  noMax : Bool
  max2 : Nat
  max3 : Nat

/-- quote.hpp:303-308. -/
def limits (env : Env) (maxSize : Nat) : Limits :=
  let max1 := if maxSize ≥ 5 then maxSize else 5
  ⟨maxSize = env.sizeMax, max1 - 2, max1 - 2 - 3⟩

/-- What happens from `escape` on, until a jump back to `again_2` (left side of sum) or a return (right side): quote.hpp:423-440. The
left side is what is written, `i_1`, `i_2` and `follows_hex`. -/
def escape (env : Env) (s : List Nat) (lim : Limits) (followsHex : Bool) (i1 i2 j2 n2 n3 : Nat) :
    Option ((List Nat × Nat × Nat × Bool) ⊕ List Nat) := do
  let text ← sub s i1 j2
  let r ← render env s (i1 + j2) ⟨[], if j2 > 0 then false else followsHex⟩
  if lim.noMax ∨ r.buffer.length ≤ n3 - j2 then
    some (.inl (text ++ r.buffer, i1 + j2 + 1, i2 + j2 + r.buffer.length, r.followsHex))
  else some (.inr (text ++ (← finish env s (n2 - j2) (i1 + j2) r)))

/-- What happens from `again_2` on, until a jump back to it or a return: quote.hpp:407-469. -/
def turn (env : Env) (s : List Nat) (lim : Limits) (i1 i2 : Nat) (followsHex : Bool) :
    Option ((List Nat × Nat × Nat × Bool) ⊕ List Nat) :=
  if i1 ≤ s.length ∧ (lim.noMax ∨ i2 ≤ lim.max2) then
    let n1 := s.length - i1
    let n2 := lim.max2 - i2
    if lim.noMax ∨ n1 ≤ n2 then do
      let rest ← sub s i1 n1
      let j2 := find env followsHex rest
      if j2 = n1 then some (.inr (rest ++ [env.quote]))
      else if i2 ≤ lim.max3 then
        let n3 := lim.max3 - i2
        if lim.noMax ∨ j2 < n3 then escape env s lim followsHex i1 i2 j2 n2 n3
        else do
          let j2 := n3
          let text ← sub s i1 j2
          let r ← render env s (i1 + j2) ⟨[], if j2 > 0 then false else followsHex⟩
          some (.inr (text ++ (← finish env s (n2 - j2) (i1 + j2) r)))
      else none
    else if i2 ≤ lim.max3 then do
      let n3 := lim.max3 - i2
      let text ← sub s i1 n3
      let j2 := find env followsHex text
      if j2 = n3 then some (.inr (text ++ (ellipsis ++ [env.quote])))
      else escape env s lim followsHex i1 i2 j2 n2 n3
    else none
  else none

/-- The loop: quote.hpp:407-469. The first argument bounds the number of turns; every turn but the last consumes a character. The
result is what is written. -/
def loop (env : Env) (s : List Nat) (lim : Limits) : Nat → Nat → Nat → Bool → Option (List Nat)
  | 0, _, _, _ => none
  | k + 1, i1, i2, fh => do
    match ← turn env s lim i1 i2 fh with
    | .inr text => some text
    | .inl (text, i1, i2, fh) => some (text ++ (← loop env s lim k i1 i2 fh))

/-- `core::try_int_add()`, saturating: quote.hpp:343-344. -/
def satAdd (env : Env) (a b : Nat) : Nat := if a + b ≤ env.sizeMax then a + b else env.sizeMax

/-- The loop at `again_1`: quote.hpp:351-385. The result is the final contents of the buffer, or nothing if the unquoted form is to be
used. -/
def compareLoop (env : Env) (s : List Nat) (lim : Limits) (n1 : Nat) : Nat → Nat → Rend → Option (Option (List Nat))
  | 0, _, _ => none
  | k + 1, j1, r =>
    if satAdd env n1 r.buffer.length > lim.max2 then some none
    else if j1 + 1 ≠ s.length then do compareLoop env s lim n1 k (j1 + 1) (← render env s (j1 + 1) r)
    else some (some r.buffer)

/-- The beginning of the attempt to not quote: quote.hpp:314-334. The result is nothing if the string is to be written as is. Otherwise
it is `i_1`. -/
def unquotedSize (env : Env) (s : List Nat) (noMax : Bool) (maxSize : Nat) : Option (Option Nat) :=
  let max4 := if maxSize ≥ 3 then maxSize else 3
  if noMax ∨ s.length ≤ max4 then
    let j2 := find env false s
    if j2 = s.length then some none
    else if noMax ∨ j2 ≤ max4 - 3 then some (some j2) else some (some (max4 - 3))
  else do
    let text ← sub s 0 (max4 - 3)
    some (some (find env false text))

/-- `do_quote()`: quote.hpp:190-470. The result is what is written. -/
def doQuote (env : Env) (s : List Nat) (maxSize : Nat) (smart : Bool) : Option (List Nat) := do
  let lim := limits env maxSize
  if smart ∧ s ≠ [] then
    match ← unquotedSize env s lim.noMax maxSize with
    | none => some s
    | some n1 =>
      let r ← render env s n1 ⟨[], false⟩
      let n2 := satAdd env n1 r.buffer.length
      let text ← sub s 0 n1
      if lim.noMax ∨ n2 ≤ lim.max3 then
        some (env.quote :: (text ++ r.buffer ++ (← loop env s lim (s.length + 1) (n1 + 1) (n1 + r.buffer.length) r.followsHex)))
      else
        match ← compareLoop env s lim n1 (s.length - n1) n1 r with
        | none => some (text ++ ellipsis)
        | some buffer =>
          let n2 := satAdd env n1 buffer.length
          let oversized := n2 > maxSize ∨ 2 > maxSize - n2
          let larger := buffer.length > 3 ∨ 2 > 3 - buffer.length
          if ¬ oversized ∨ ¬ larger then some (env.quote :: (text ++ (buffer ++ [env.quote])))
          else some (text ++ ellipsis)
  else some (env.quote :: (← loop env s lim (s.length + 1) 0 0 false))

end Verif.Quote
