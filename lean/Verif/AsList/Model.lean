import Mathlib.Data.List.DropRight

/-!
# Model of formatting and parsing of lists

Model of `/repo/src/archon/core/as_list.hpp`. Characters are already widened. Formatting of an element is given by its text. Parsing of an
element is given by a function.
-/

namespace Verif.AsList

/-- `AsListSpace` (`/repo/src/archon/core/as_list.hpp:50-81`). -/
inductive Space where
  | auto
  | none
  | allow
  | tight
  | loose
deriving DecidableEq

/-- `AsListConfig` (`/repo/src/archon/core/as_list.hpp:90-121`). -/
structure Config where
  separator : Char := ','
  bracketed : Bool := false
  openingBracket : Char := '['
  closingBracket : Char := ']'
  space : Space := .auto

/-- `space_inside_brackets` in `format_as_list()` (`/repo/src/archon/core/as_list.hpp:297-313`). -/
def spaceInsideBrackets (c : Config) : Bool := match c.space with
  | .loose => true
  | _ => false

/-- `space_after_separator` in `format_as_list()` (`/repo/src/archon/core/as_list.hpp:297-313`). -/
def spaceAfterSeparator (c : Config) : Bool := match c.space with
  | .auto => c.separator ≠ ' '
  | .none => false
  | .allow => false
  | .tight => true
  | .loose => true

/-- A space character if so specified. -/
def spaceIf (b : Bool) : List Char := if b then [' '] else []

/-- The loop in `format_as_list()` after the first element (`/repo/src/archon/core/as_list.hpp:321-329`). -/
def formatRest (c : Config) : List (List Char) → List Char
  | [] => []
  | text :: rest => [c.separator] ++ spaceIf (spaceAfterSeparator c) ++ text ++ formatRest c rest

/-- The elements as they are formatted by `format_as_list()` (`/repo/src/archon/core/as_list.hpp:320-330`). -/
def formatElems (c : Config) : List (List Char) → List Char
  | [] => []
  | text :: rest => text ++ formatRest c rest

/-- `format_as_list()` (`/repo/src/archon/core/as_list.hpp:289-338`). -/
def formatAsList (c : Config) (texts : List (List Char)) : List Char :=
  (if c.bracketed then [c.openingBracket] ++ spaceIf (spaceInsideBrackets c) else []) ++
  formatElems c texts ++
  (if c.bracketed then spaceIf (spaceInsideBrackets c) ++ [c.closingBracket] else [])

/-- Parsing of an element. If it fails, the element may be clobbered. -/
structure Parser (V : Type) where
  parse : List Char → Option V
  clobber : List Char → V → V

/-- `allow_space` in `parse_as_list()` (`/repo/src/archon/core/as_list.hpp:361-373`). -/
def allowSpace (c : Config) : Bool := match c.space with
  | .auto => true
  | .none => false
  | .allow => true
  | .tight => true
  | .loose => true

/-- Removal of brackets, and of space inside the brackets (`/repo/src/archon/core/as_list.hpp:374-389`). The result is absent if there are
no brackets. -/
def body (c : Config) (str : List Char) : Option (List Char) :=
  if c.bracketed then
    match str with
    | [] => none
    | x :: rest =>
      if x ≠ c.openingBracket then none
      else if rest = [] ∨ rest.getLast? ≠ some c.closingBracket then none
      else
        let text := rest.dropLast
        some (if allowSpace c then (text.dropWhile (· = ' ')).rdropWhile (· = ' ') else text)
  else some str

/-- The loop in `parse_as_list()` (`/repo/src/archon/core/as_list.hpp:391-417`). The arguments are what remains of the text, and of the
sequence. The result tells whether parsing succeeded, how many elements were parsed, and what is in the sequence afterwards. -/
def parseLoop {V : Type} (c : Config) (P : Parser V) : List Char → List V → Bool × ℕ × List V
  | _, [] => (false, 0, [])
  | text, old :: rest =>
    let substr := text.takeWhile (· ≠ c.separator)
    let tail := text.dropWhile (· ≠ c.separator)
    match P.parse substr with
    | none => (false, 0, P.clobber substr old :: rest)
    | some val =>
      if rest ≠ [] then
        match tail with
        | [] => (true, 1, val :: rest)
        | _ :: text =>
          let text := if allowSpace c then text.dropWhile (· = ' ') else text
          let r := parseLoop c P text rest
          (r.1, r.2.1 + 1, val :: r.2.2)
      else (decide (tail = []), 1, [val])

/-- `parse_as_list()` (`/repo/src/archon/core/as_list.hpp:352-424`). -/
def parseAsList {V : Type} (c : Config) (P : Parser V) (str : List Char) (seq : List V) : Bool × ℕ × List V :=
  match body c str with
  | none => (false, 0, seq)
  | some text =>
    if seq ≠ [] then parseLoop c P text seq
    else (decide (str = []), 0, seq)

/-- `parse_value()` for `AsList` and `AsListFunc` (`/repo/src/archon/core/as_list.hpp:453-462` and `481-490`). -/
def parseList {V : Type} (c : Config) (P : Parser V) (str : List Char) (seq : List V) : Bool × List V :=
  let r := parseAsList c P str seq
  (r.1 && decide (r.2.1 = seq.length), r.2.2)

/-- The determination of the number of elements to be formatted in `operator<<()` for `AsListA` and `AsListFuncA`
(`/repo/src/archon/core/as_list.hpp:504-513` and `554-563`). -/
def elide {V : Type} [DecidableEq V] (default : V) (copyLast : Bool) (minElems : ℕ) (seq : List V) : ℕ → ℕ
  | 0 => 0
  | i + 1 =>
    if i + 1 > minElems ∧ (if copyLast then seq[i]? = seq[i - 1]? else seq[i]? = some default) then elide default copyLast minElems seq i
    else i + 1

/-- `operator<<()` for `AsListA` and `AsListFuncA` (`/repo/src/archon/core/as_list.hpp:501-517` and `551-567`). -/
def formatListA {V : Type} [DecidableEq V] (c : Config) (fmt : V → List Char) (default : V) (minElems : ℕ) (copyLast : Bool) (seq : List V) :
    List Char :=
  formatAsList c ((seq.take (elide default copyLast (max minElems 1) seq seq.length)).map fmt)

/-- `parse_value()` for `AsListA` and `AsListFuncA` (`/repo/src/archon/core/as_list.hpp:520-539` and `570-589`). -/
def parseListA {V : Type} (c : Config) (P : Parser V) (default : V) (copyLast : Bool) (str : List Char) (seq : List V) : Bool × List V :=
  let r := parseAsList c P str seq
  if r.1 then
    if seq ≠ [] then
      let fillVal := if copyLast then r.2.2.getD (r.2.1 - 1) default else default
      (true, r.2.2.take r.2.1 ++ List.replicate (seq.length - r.2.1) fillVal)
    else (true, r.2.2)
  else (false, r.2.2)

/-- `operator<<()` for `AsListV` and `AsListFuncV` (`/repo/src/archon/core/as_list.hpp:599-605` and `630-636`). -/
def formatListV {V : Type} (c : Config) (fmt : V → List Char) (n : ℕ) (seq : List V) : List Char :=
  formatAsList c ((seq.take (min n seq.length)).map fmt)

/-- `parse_value()` for `AsListV` and `AsListFuncV` (`/repo/src/archon/core/as_list.hpp:608-619` and `639-650`). The second component of the
result is the new value of `n`. -/
def parseListV {V : Type} (c : Config) (P : Parser V) (str : List Char) (n : ℕ) (seq : List V) : Bool × ℕ × List V :=
  let r := parseAsList c P str seq
  if r.1 then (true, r.2.1, r.2.2) else (false, n, r.2.2)

end Verif.AsList
