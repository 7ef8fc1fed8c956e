/-!
# Model of string templates

Source: `/repo/src/archon/core/string_template.hpp` (with
`/repo/src/archon/core/stream_output.hpp:377-435` for the field width support of `expand()`).

Simplifications.

* The character type is an arbitrary type `α`. The three characters `@`, `{`, and `}`, as widened in
  the locale of the parser, and the narrowing function of the locale, are parameters (`Chars`).
* An output stream is the text written to it so far, its format flags, its field width, its fill
  character, and the rest of its formatting state (`OStream`). Writing to a stream never fails; the
  error state and the exception mask of streams are left out.
* The parameter map entries that substitutions point to are represented by copies of those entries
  (entries of the map are never changed or removed through the API). The model does not represent
  the lifetime of the map.
* The formatted text of error messages is represented by its arguments (`Err`).
* Memory exhaustion is left out, as is the handling of the buffers of the parser.
-/

namespace Verif.StringTemplate

variable {α β F R E A : Type}

/-- The characters `@`, `{`, and `}`, after widening
(`/repo/src/archon/core/string_template.hpp:658-660`), and the narrowing of characters
(`/repo/src/archon/core/string_template.hpp:702`). -/
structure Chars (α β : Type) where
  lead : α
  «open» : α
  close : α
  narrow : α → β

/-- An output stream (`std::basic_ostream`). `flags` is the value of `flags()`, `width` is the value
of `width()`, and `rest` is the rest of the formatting state. -/
structure OStream (α F R : Type) where
  text : List α
  flags : F
  width : Nat
  fill : α
  rest : R

/-- Writing of a string to an output stream, `out << string`. If the string is shorter than the field
width, it is padded with the fill character, after the string if `left` holds for the format flags,
and before the string otherwise. The field width is then set to zero. (C++20
[ostream.formatted.reqmts], [string.io]). -/
def OStream.write (left : F → Bool) (o : OStream α F R) (s : List α) : OStream α F R :=
  let pad := List.replicate (o.width - s.length) o.fill
  { o with text := o.text ++ (if left o.flags then s ++ pad else pad ++ s), width := 0 }

/-- The effect of a parameter evaluation function (`EvalFunc`,
`/repo/src/archon/core/string_template.hpp:133`) on an output stream, and the exception thrown by it,
if any. -/
abbrev Eval (α F R A E : Type) := A → OStream α F R → OStream α F R × Option E

/-- Entry of parameter map (`Parameters::Map::value_type`,
`/repo/src/archon/core/string_template.hpp:220`). -/
structure Entry (α β F R A E : Type) where
  name : List β
  eval : Eval α F R A E

/-- `Parameters` (`/repo/src/archon/core/string_template.hpp:202-227`). -/
abbrev Params (α β F R A E : Type) := List (Entry α β F R A E)

/-- `std::map::find()` as used at `/repo/src/archon/core/string_template.hpp:703`. -/
def find? [DecidableEq β] (ps : Params α β F R A E) (name : List β) : Option (Entry α β F R A E) :=
  ps.find? (fun e => decide (e.name = name))

/-- `Parameters::define()` (`/repo/src/archon/core/string_template.hpp:480-488`). The result is `none`
when the function throws. -/
def define [DecidableEq β] (ps : Params α β F R A E) (name : List β) (eval : Eval α F R A E) :
    Option (Params α β F R A E) :=
  match find? ps name with
  | none => some (⟨name, eval⟩ :: ps)
  | some _ => none

/-- `Substitution` (`/repo/src/archon/core/string_template.hpp:401-404`). -/
structure Subst (α β F R A E : Type) where
  «begin» : Nat
  «end» : Nat
  param : Option (Entry α β F R A E)

/-- The state of a `BasicStringTemplate` object (`/repo/src/archon/core/string_template.hpp:186-187`).
-/
structure Template (α β F R A E : Type) where
  string : List α
  substs : List (Subst α β F R A E)

/-- A template constructed by the default constructor
(`/repo/src/archon/core/string_template.hpp:143`). -/
def Template.empty : Template α β F R A E := ⟨[], []⟩

/-- Outcome of an expansion: normal return (`none`), exception thrown by evaluation function, or
exception thrown by `substr()` because of a bad offset. -/
inductive Thrown (E : Type) where
  | eval (e : E)
  | outOfRange

/-- `string_view::substr(i, begin - i)` where `begin - i` is computed in `std::size_t`. When `begin` is
less than `i`, the count is a huge number, and everything after position `i` is produced. `none` when
`i` is greater than the size of the string. -/
def substr (s : List α) (i «begin» : Nat) : Option (List α) :=
  if i ≤ s.length then
    some (if i ≤ «begin» then (s.drop i).take («begin» - i) else s.drop i)
  else
    none

/-- Loop of `expand()` (`/repo/src/archon/core/string_template.hpp:431-444`). -/
def expandLoop (C : Chars α β) (left : F → Bool) (string : List α) (flags : F) (args : A) :
    Nat → List (Subst α β F R A E) → OStream α F R → OStream α F R × Option (Thrown E)
  | i, [], o =>
    match substr string i string.length with
    | none => (o, some .outOfRange)
    | some s => (o.write left s, none)
  | i, subst :: rest, o =>
    match substr string i subst.begin with
    | none => (o, some .outOfRange)
    | some s =>
      let o := o.write left s
      match subst.param with
      | some entry =>
        let r := entry.eval args o
        match r.2 with
        | some e => (r.1, some (.eval e))
        | none => expandLoop C left string flags args subst.end rest { r.1 with flags := flags }
      | none => expandLoop C left string flags args subst.end rest (o.write left [C.lead])

/-- `BasicStringTemplate::expand()` (`/repo/src/archon/core/string_template.hpp:426-450`). The
characters of `"@"` are widened as they are written, and the result of this is assumed to be the same
as in the parser. -/
def expand (C : Chars α β) (left : F → Bool) (t : Template α β F R A E) (args : A)
    (o : OStream α F R) : OStream α F R × Option (Thrown E) :=
  let flags := o.flags
  let r := expandLoop C left t.string flags args 0 t.substs o
  match r.2 with
  | none => r
  | some e => ({ r.1 with flags := flags }, some e)

/-- `BasicStringTemplate::refers_to()` (`/repo/src/archon/core/string_template.hpp:454-465`). -/
def refersTo [DecidableEq β] (t : Template α β F R A E) (name : List β) : Bool :=
  t.substs.any fun subst =>
    match subst.param with
    | some entry => decide (name = entry.name)
    | none => false

/-- Output of the object returned by the free-standing function `expand()`
(`/repo/src/archon/core/string_template.hpp:755-785`), by means of `BasicStreamOutputAltHelper`
(`/repo/src/archon/core/stream_output.hpp:377-435`). With a nonzero field width, the expansion is
written to a separate stream which is set up like the target stream (`copyfmt()`), and from there to
the target stream as a single string. -/
def outputExpand (C : Chars α β) (left : F → Bool) (t : Template α β F R A E) (args : A)
    (o : OStream α F R) : OStream α F R × Option (Thrown E) :=
  if o.width = 0 then
    expand C left t args o
  else
    let r := expand C left t args { o with text := [], width := 0 }
    match r.2 with
    | some e => (o, some e)
    | none => (o.write left r.1.text, none)

/-! ### Parsing -/

/-- The errors that can be passed to the error handler
(`/repo/src/archon/core/string_template.hpp:326-332`, lines 676, 686, 705). The first two have
error code `bad_syntax`, and the last one has error code `bad_param_ref`. -/
inductive Err (α : Type) where
  /-- Unterminated parameter reference `@` at end of string -/
  | atEnd
  /-- Unterminated parameter reference `@{` at offset `offset` -/
  | unterminated (offset : Nat)
  /-- Undefined parameter `name` in parameter reference `ref` -/
  | undefined (name : List α) (ref : List α)
  deriving DecidableEq

/-- What an error handler can do (`/repo/src/archon/core/string_template.hpp:532-575`): Return `true`,
return `false`, or throw. -/
inductive Reaction where
  | goOn
  | stop
  | throws
  deriving DecidableEq

/-- An error handler. It is passed the error, and the errors that it was passed earlier (last one
first). In this way, the state of the handler can be anything that it can derive from the errors that
it was passed. -/
abbrev Handler (α : Type) := List (Err α) → Err α → Reaction

/-- How a parsing operation ends. -/
inductive Outcome where
  | returns (success : Bool)
  | throws
  | outOfFuel
  deriving DecidableEq

/-- The result of the main loop of `do_try_parse()`: The calls of the error handler (last one first),
how the loop ended, and the substitutions found (last one first). -/
structure LoopResult (α β F R A E : Type) where
  calls : List (Err α)
  outcome : Outcome
  substs : List (Subst α β F R A E)

/-- `string_view::find(ch, pos)`. -/
def findChar [DecidableEq α] (s : List α) (ch : α) (pos : Nat) : Option Nat :=
  if pos ≤ s.length then
    (s.drop pos).idxOf? ch |>.map (pos + ·)
  else
    none

/-- Main loop of `do_try_parse()` (`/repo/src/archon/core/string_template.hpp:671-714`). -/
def parseLoop [DecidableEq α] [DecidableEq β] (C : Chars α β) (string : List α)
    (params : Params α β F R A E) (h : Handler α) :
    Nat → Nat → List (Err α) → List (Subst α β F R A E) → LoopResult α β F R A E
  | 0, _, calls, substs => ⟨calls, .outOfFuel, substs⟩
  | fuel + 1, curr, calls, substs =>
    match findChar string C.lead curr with
    | none => ⟨calls, .returns true, substs⟩
    | some i =>
      -- The local function `error()` (lines 662-666), the subsequent check of `abort`, and then
      -- `continue` with the specified value of `curr`
      let error (err : Err α) (curr : Nat) : LoopResult α β F R A E :=
        match h calls err with
        | .goOn => parseLoop C string params h fuel curr (err :: calls) substs
        | .stop => ⟨err :: calls, .returns false, substs⟩
        | .throws => ⟨err :: calls, .throws, substs⟩
      match string[i + 1]? with
      | none => error .atEnd (i + 1)
      | some ch =>
        -- Lookup of parameter and addition of substitution (lines 700-713)
        let lookup (name : List α) (curr : Nat) : LoopResult α β F R A E :=
          if ch ≠ C.lead then
            match find? params (name.map C.narrow) with
            | none => error (.undefined name ((string.drop i).take (curr - i))) curr
            | some entry =>
              parseLoop C string params h fuel curr calls (⟨i, curr, some entry⟩ :: substs)
          else
            parseLoop C string params h fuel curr calls (⟨i, curr, none⟩ :: substs)
        if ch = C.open then
          match findChar string C.close (i + 2) with
          | none => error (.unterminated i) (i + 2)
          | some j => lookup ((string.drop (i + 2)).take (j - (i + 2))) (j + 1)
        else
          lookup ((string.drop (i + 1)).take 1) (i + 2)

/-- `Parser::do_try_parse()` (`/repo/src/archon/core/string_template.hpp:654-720`) and therefore
`Parser::try_parse()` (lines 607-624). The result is the sequence of errors passed to the error
handler (in order), the way in which the operation ended, and the resulting state of the template
object. -/
def tryParse [DecidableEq α] [DecidableEq β] (C : Chars α β) (string : List α)
    (params : Params α β F R A E) (templ : Template α β F R A E) (h : Handler α) :
    List (Err α) × Outcome × Template α β F R A E :=
  let r := parseLoop C string params h (string.length + 1) 0 [] []
  match r.outcome with
  | .returns true => (r.calls.reverse, .returns true, ⟨string, r.substs.reverse⟩)
  | outcome => (r.calls.reverse, outcome, templ)

/-- A parser object. The member `m_locale` is a reference
(`/repo/src/archon/core/string_template.hpp:340`), and `localeAlive` says whether the locale object
that it refers to still exists. -/
structure Parser where
  localeAlive : Bool

/-- A variable of type `Parser` initialized by `Parser(const std::locale& = {})`
(`/repo/src/archon/core/string_template.hpp:268`, lines 578-584). When no locale is specified, the
reference is bound to a temporary object which ceases to exist at the end of the declaration of the
variable. When one is specified (`given`), it is assumed to still exist. -/
def Parser.create (given : Bool) : Parser := ⟨given⟩

/-- Result of `parse()`. -/
inductive ParseResult (α β F R A E : Type) where
  | template (templ : Template α β F R A E)
  /-- An exception is thrown whose message describes the error. -/
  | throws (err : Err α)
  /-- An object is accessed after the end of its lifetime. -/
  | undefinedBehavior

/-- `Parser::parse()` and `Parser::do_parse()` (`/repo/src/archon/core/string_template.hpp:587-604`,
lines 627-642). The construction of the throwing error handler copies the locale that `m_locale` refers
to. The throwing error handler is at `/repo/src/archon/core/string_template.hpp:541-558`. -/
def Parser.parse [DecidableEq α] [DecidableEq β] (P : Parser) (C : Chars α β) (string : List α)
    (params : Params α β F R A E) : ParseResult α β F R A E :=
  if P.localeAlive then
    let r := tryParse C string params Template.empty (fun _ _ => .throws)
    match r.1.head? with
    | some err => .throws err
    | none => .template r.2.2
  else
    .undefinedBehavior

/-- `BasicStringTemplate(string, parameters, locale)`
(`/repo/src/archon/core/string_template.hpp:407-422`). The locale, even when it is a default argument,
exists until the constructor returns. -/
def construct [DecidableEq α] [DecidableEq β] (C : Chars α β) (string : List α)
    (params : Params α β F R A E) : ParseResult α β F R A E :=
  (Parser.create true).parse C string params

end Verif.StringTemplate
