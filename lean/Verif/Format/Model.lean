/-!
Model of /repo/src/archon/core/format.hpp: formatting of parameterized strings.

A parameter is its string representation. What is written to the stream is a list of characters. Simplified: the field
width of the stream is zero, except in `formatted`. The overloads for other character types and for null-terminated strings are left out.
-/
namespace Verif.Format

/-- The reasons for which `core::BadFormatString` is thrown: format.hpp:363, 371, 395, and 397. The last one is for
recursion without end, and does not occur. -/
inductive Err where
  | tooFew
  | tooMany
  | invalid
  | missing
  | endless
deriving DecidableEq, Repr

/-- `std::basic_string_view::find()` for a percent sign: format.hpp:379. -/
def find (string : List Char) (i : Nat) : Option Nat := ((string.drop i).findIdx? (· == '%')).map (· + i)

/-- `Format::advance_3()`: format.hpp:374-401. The result is what is written, and the returned index or the exception. The
first argument is an upper bound on the number of iterations. -/
def advance3 : Nat → List Char → Nat → List Char × Except Err Nat
  | 0, _, _ => ([], .error .endless)
  | fuel + 1, string, i =>
    let n := string.length
    let j := match find string i with
      | some j => j
      | none => n
    let out := (string.drop i).take (j - i)
    if j < n then
      let j := j + 1
      if j < n then
        if string[j]? = some 's' then (out, .ok (j + 1))
        else if string[j]? = some '%' then
          let (out2, r) := advance3 fuel string (j + 1)
          (out ++ '%' :: out2, r)
        else (out, .error .invalid)
      else (out, .error .missing)
    else (out, .ok 0)

/-- `Format::advance_1()`: format.hpp:359-365. -/
def advance1 (string : List Char) : List Char × Except Err Nat :=
  match advance3 (string.length + 1) string 0 with
  | (out, .ok i) => if i = 0 then (out, .error .tooFew) else (out, .ok i)
  | r => r

/-- `Format::advance_2()`: format.hpp:367-372. -/
def advance2 (string : List Char) : List Char × Option Err :=
  match advance3 (string.length + 1) string 0 with
  | (out, .ok i) => if i > 0 then (out, some .tooMany) else (out, none)
  | (out, .error e) => (out, some e)

/-- `Format::format()`: format.hpp:330-341. The result is what is written, and the exception, if there is one. -/
def format : List Char → List (List Char) → List Char × Option Err
  | string, [] => advance2 string
  | string, param :: params =>
    match advance1 string with
    | (out, .error e) => (out, some e)
    | (out, .ok i) =>
      let (out2, e) := format (string.drop i) params
      (out ++ param ++ out2, e)

/-- `Format::format_alt()`: format.hpp:343-353. The last argument is what is written so far, and `string` is
`string_2`. -/
def formatAlt : List (List Char) → List Char → List Char → List Char × Option Err
  | [], string, out =>
    let (out2, e) := advance2 string
    (out ++ out2, e)
  | param :: params, string, out =>
    match advance1 string with
    | (out2, .error e) => (out ++ out2, some e)
    | (out2, .ok i) => formatAlt params (string.drop i) (out ++ out2 ++ param)

/-- The output operator for `core::formatted()`: format.hpp:405-423, with `core::BasicStreamOutputAltHelper`
(stream_output.hpp:193-218 and 393-440). If the field width is not zero, the text is collected, and written as a single string by
`flush()`, which is not reached when an exception is thrown. Adjustment is to the right, and the fill character is
space. -/
def formatted (width : Nat) (string : List Char) (params : List (List Char)) : List Char × Option Err :=
  if width = 0 then format string params
  else
    match format string params with
    | (out, none) => (List.replicate (width - out.length) ' ' ++ out, none)
    | (_, some e) => ([], some e)

end Verif.Format
