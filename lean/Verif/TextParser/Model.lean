import Verif.StringSplit.Model
/-!
Model of `BasicTextParser`: /repo/src/archon/core/text_parser.hpp.

Splitting of the text is by way of the model of `BasicStringSplitter` (`StringSplit`). The value parser is a parameter for each field. All
fields have the same type of value. Exceptions are not modelled.
-/
namespace Verif.TextParser
open Verif.StringSplit

/-- `TextParserBase::Error`: text_parser.hpp:42-46. -/
inductive Error
  | missingValue
  | badValue
  | tooManyValues
deriving DecidableEq, Repr

/-- `Field1`: text_parser.hpp:107-110. The value of the variable before parsing is `var`. `parse` is the effect of the value parser, and
`clobber` is the value of the variable after the value parser has failed. `FieldSeq1`: text_parser.hpp:122-125, for which `var` and `clobber`
do not matter. -/
structure Field (C V J : Type) where
  parse : List C → Option V
  clobber : List C → V → V
  var : V
  ident : J

/-- The variables for error information. -/
structure Report (C J : Type) where
  error : Error
  value : List C
  ident : J
  pos : Nat
deriving DecidableEq, Repr

variable {C V J : Type} [DecidableEq C]

/-- The first part of both versions of `parse()`, which is a loop over the fields, with `set()`: text_parser.hpp:148-164, 184-200, 275-279.
The result is whether parsing of the fields succeeded, the values of the variables, the state of the splitter, and the error information. -/
def fieldsLoop (s : List C) (delim : C) : List (Field C V J) → Splitter C → Report C J → Bool × List V × Splitter C × Report C J
  | [], sp, r => (true, [], sp, r)
  | f :: fields, sp, r =>
    match sp.next delim with
    | some (w, sp) =>
      let word := slice s w
      match f.parse word with
      | some v =>
        let (success, vars, sp, r) := fieldsLoop s delim fields sp r
        (success, v :: vars, sp, r)
      | none => (false, f.clobber word f.var :: fields.map Field.var, sp, { r with error := .badValue, value := word, pos := w.1, ident := f.ident })
    | none => (false, f.var :: fields.map Field.var, sp, { r with error := .missingValue, pos := s.length, ident := f.ident })

/-- The first version of `parse()`: text_parser.hpp:142-173. The result is what is returned, the values of the variables, and the error
information. -/
def parse (s : List C) (delim : C) (fields : List (Field C V J)) (r : Report C J) : Bool × List V × Report C J :=
  let (success, vars, sp, r) := fieldsLoop s delim fields (Splitter.init s) r
  if success then
    match sp.next delim with
    | none => (true, vars, r)
    | some (w, _) => (false, vars, { r with error := .tooManyValues, value := slice s w, pos := w.1 })
  else (false, vars, r)

/-- The loop of the second version of `parse()`, with `add()`, and what follows the loop: text_parser.hpp:202-224, 297-307. The number of rounds
is bounded by `fuel`, and running out of it is represented by failure. `vec` is the contents of the vector. -/
def seqLoop (s : List C) (delim : C) (f : Field C V J) (min max : Nat) : (fuel i : Nat) → (vec : List V) → Splitter C → Report C J →
    Bool × List V × Report C J
  | 0, _, vec, _, r => (false, vec, r)
  | fuel + 1, i, vec, sp, r =>
    match sp.next delim with
    | some (w, sp) =>
      let word := slice s w
      if i < max then
        match f.parse word with
        | some v => seqLoop s delim f min max fuel (i + 1) (vec ++ [v]) sp r
        | none => (false, vec, { r with error := .badValue, ident := f.ident, value := word, pos := w.1 })
      else (false, vec, { r with error := .tooManyValues, value := word, pos := w.1 })
    | none =>
      if i ≥ min then (true, vec, r)
      else (false, vec, { r with error := .missingValue, ident := f.ident, pos := s.length })

/-- The second version of `parse()`: text_parser.hpp:176-225. The result is what is returned, the values of the variables, the contents of the
vector, and the error information. -/
def parseSeq (s : List C) (delim : C) (fields : List (Field C V J)) (f : Field C V J) (min max : Nat) (vec : List V) (r : Report C J) :
    Bool × List V × List V × Report C J :=
  let (success, vars, sp, r) := fieldsLoop s delim fields (Splitter.init s) r
  if success then
    let (success, vec, r) := seqLoop s delim f min max (s.length + 1) 0 vec sp r
    (success, vars, vec, r)
  else (false, vars, vec, r)

end Verif.TextParser
