import Verif.Integer.Model2
import Verif.Buffer.Model
/-
Model of the integer parser and the integer formatter:
/repo/src/archon/core/integer_parser.hpp and /repo/src/archon/core/integer_formatter.hpp.

Integer types and arithmetic: see Verif/Integer/Model.lean (`I` is the number of value bits of `int`). The buffer
of the formatter: see Verif/Buffer/Model.lean. The character mapper is represented by two functions: `narrow` yields
the code (ASCII) of the narrowed character, or zero (`m_mapper.narrow(ch, '\0')`), and `widen`.
-/
namespace Verif.IntText

open Verif.Integer

/-! ### Parser -/

/-- `IntegerParserBase::Sign`: integer_parser.hpp:48-53. -/
inductive Sign where
  | auto_ | accept | acceptMinus | reject
deriving DecidableEq, Repr

/-- `impl::integer_parser_map_digit(char)`: integer_parser.hpp:129-258. The switch statement has one case for each
digit and each letter; here as ranges of ASCII codes. -/
def mapDigit (c : Nat) : Int :=
  if 48 ≤ c ∧ c ≤ 57 then c - 48
  else if 65 ≤ c ∧ c ≤ 90 then c - 65 + 10
  else if 97 ≤ c ∧ c ≤ 122 then c - 97 + 10
  else -1

/-- `impl::integer_parser_map_digit(char, int, int&)`: integer_parser.hpp:261-269. -/
def mapDigitR (c : Nat) (radix : Int) : Option Int :=
  let value := mapDigit c
  if value ≠ -1 ∧ value < radix then some value else none

/-- `BasicIntegerParser::map_sign()`: integer_parser.hpp:364-379. -/
def mapSign (T : Ty) : Sign → Sign
  | .auto_ => if T.signed then .acceptMinus else .reject
  | .accept => .accept
  | .acceptMinus => .acceptMinus
  | .reject => .reject

/-- The treatment of the sign in `parse()`: integer_parser.hpp:286-311. Returns the sign value and the remaining
string. -/
def takeSign (narrow : C → Nat) (mode : Sign) (s : List C) : Int × List C :=
  match mode, s with
  | .accept, ch :: rest =>
    if narrow ch = 43 ∨ narrow ch = 45 then ((if narrow ch = 43 then 1 else -1), rest) else (1, s)
  | .acceptMinus, ch :: rest => if narrow ch = 45 then (-1, rest) else (1, s)
  | _, s => (1, s)

/-- The loop of `parse()`: integer_parser.hpp:313-324. The outcome `none` is undefined behaviour; `some none` is
failure. -/
def parseLoop (I : Nat) (T : Ty) (narrow : C → Nat) (radix signVal : Int) : List C → Int → Option (Option Int)
  | [], val => some (some val)
  | ch :: rest, val =>
    match mapDigitR (narrow ch) radix with
    | none => some none
    | some digit =>
      match tryMul I T (intTy I) val radix with
      | none => none
      | some none => some none
      | some (some val) =>
        match arith I (intTy I) (signVal * digit) with
        | none => none
        | some add =>
          match tryAdd I T (intTy I) val add with
          | none => none
          | some none => some none
          | some (some val) => parseLoop I T narrow radix signVal rest val

/-- `BasicIntegerParser::parse()`: integer_parser.hpp:282-329. Returns the return value, and the value of `var`
afterwards. -/
def parse (I : Nat) (T : Ty) (narrow : C → Nat) (radix : Int) (sign : Sign) (s : List C) (var : Int) :
    Option (Bool × Int) :=
  let (signVal, s2) := takeSign narrow (mapSign T sign) s
  if s2 ≠ [] then
    match parseLoop I T narrow radix signVal s2 0 with
    | none => none
    | some none => some (false, var)
    | some (some val) => some (true, val)
  else some (false, var)

/-! ### Formatter -/

open Verif.Buffer (Err Res)

/-- `format_int_uc_digits` and `format_int_lc_digits`: integer_formatter.hpp:45-63 (ASCII codes). -/
def digitCode (lower : Bool) (d : Nat) : Nat :=
  if d < 10 then 48 + d else if lower then 97 + (d - 10) else 65 + (d - 10)

def ofOption (x : Option α) : Res α :=
  match x with
  | some x => .ok x
  | none => .error .ub

/-- The state of the formatter while formatting: the memory of the buffer and the offset. -/
abbrev FState (C : Type) := List C × Nat

/-- The digit: integer_formatter.hpp:318 and 357, or 328 and 367. -/
def digitOf (I : Nat) (neg : Bool) (rem : Int) : Res Int :=
  if neg then ofOption (arith I (intTy I) (-rem)) else .ok rem

/-- The loop of `do_format()` and `do_format_a()`: integer_formatter.hpp:316-322 and 355-361 when `neg` is false,
326-332 and 365-371 when `neg` is true. `type` is a promoted type. The counter bounds the number of iterations (running
out of it stands for an infinite loop, represented as undefined behaviour). -/
def formatLoop (I : Nat) (type : Ty) (M : Nat) (d : C) (widen : Nat → C) (lower neg : Bool) (radix minDigits : Int) :
    Nat → Int → FState C → Res (FState C)
  | 0, _, _ => .error .ub
  | fuel + 1, value, st =>
    if value ≠ 0 ∨ cast (intTy I) ((st.1.length : Int) - st.2) < minDigits then do
      let base := cast type radix
      let quot ← ofOption (divOp I type value base)
      let rem0 ← ofOption (modOp I type value base)
      let rem1 := cast (intTy I) (cast type rem0)
      let rem ← digitOf I neg rem1
      if ¬ (rem ≥ 0 ∧ rem < 36) then .error .abort
      else do
        let st ← Verif.Buffer.prependA M d st.1 (widen (digitCode lower rem.toNat)) st.2 1
        formatLoop I type M d widen lower neg radix minDigits fuel (cast type quot) st
    else .ok st

/-- `do_format()` and `do_format_a()`: integer_formatter.hpp:300-337 and 340-376. Returns the memory of the
buffer and the offset of the result in it. -/
def doFormat (I : Nat) (type : Ty) (M : Nat) (d : C) (widen : Nat → C) (lower : Bool) (radix minDigits : Int)
    (value : Int) (mem : List C) : Res (FState C) :=
  let fuel := value.natAbs + minDigits.toNat + 1
  if !isNegative type value then formatLoop I type M d widen lower false radix minDigits fuel value (mem, mem.length)
  else do
    let st ← formatLoop I type M d widen lower true radix minDigits fuel value (mem, mem.length)
    Verif.Buffer.prependA M d st.1 (widen 45) st.2 1

/-- `core::int_max_digits<T>()`: integer.hpp:1141-1145. -/
def maxDigits (I : Nat) (T : Ty) (base : Int) : Option Int := do
  let a ← findMsdPos I T T.min base
  let b ← findMsdPos I T T.max base
  some (1 + max a b)

/-- The effective minimum number of digits: integer_formatter.hpp:235-237 and 284-286. -/
def effMinDigits (I : Nat) (T : Ty) (radix minDigits : Int) : Res Int :=
  if minDigits < 0 then ofOption (maxDigits I T radix) else .ok minDigits

/-- `BasicIntegerFormatter::format()` and `format_a()`: integer_formatter.hpp:230-245 and 280-290, for radixes between
2 and 36. Returns the memory of the buffer, and the resulting string, which is the contents of the buffer from the offset to
its end. -/
def format (I : Nat) (T : Ty) (M : Nat) (d : C) (widen : Nat → C) (lower : Bool) (radix minDigits : Int)
    (value : Int) (mem : List C) : Res (List C × List C) := do
  let minDigits ← effMinDigits I T radix minDigits
  let type := strong I T
  let st ← doFormat I type M d widen lower radix minDigits (cast type value) mem
  .ok (st.1, st.1.drop st.2)

end Verif.IntText
