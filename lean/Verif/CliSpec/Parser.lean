import Verif.CliSpec.Format
/-!
Model of the parsing of pattern expressions: `SpecParser` in /repo/src/archon/cli/impl/spec_parser.hpp.

Characters are numbers. The characters that are special in expressions are their ASCII codes, that is, widening is the identity for those.
Narrowing, and the classification of characters as alphanumeric, are those of the locale, and are parameters. Positions in the input are
represented by what remains of the input. The texts of the error messages, which name the pattern or the option, are not modelled, but what
is reported is.
-/
namespace Verif.CliSpec

/-- The locale: `m_char_mapper.narrow(c, '\0')` and `m_ctype.is(std::ctype_base::alnum, c)`: spec_parser.hpp:108-109, 780, and 853. -/
structure Env where
  narrow : Nat → Nat
  alnum : Nat → Bool

/-- `Token::Type`: spec_parser.hpp:85-88. -/
inductive TokType where
  | keyword | shortOption | longOption | valueSlot | leftSqBracket | rightSqBracket | leftParenthesis | rightParenthesis
  | ellipsis | verticalBar | comma | endOfInput
deriving DecidableEq, Repr

/-- `Token`: spec_parser.hpp:84-91. -/
structure Token where
  type : TokType
  lexeme : Str
  precededBySpace : Bool
deriving DecidableEq, Repr

/-- What is reported by `parse_error()`: spec_parser.hpp:240, 242, 244, 264, 280, 622, 681, 740, 750, 754, 815, and 865. -/
inductive ParseError where
  | multiplePatterns | unparenthesizedAlternatives | valueSlotsInDeleg
  | unexpectedToken (lexeme : Str) | needSpace | unclosedSquareBracket | unclosedParenthesis | badStart
  | missingClosing | invalidToken (lexeme : Str)
  | syntaxError
deriving DecidableEq, Repr

/-- What a function stops with. There is a limit on the depth of recursion in the model, but not in the code. -/
inductive ParseStop where
  | unfinished
  | error (err : ParseError)
deriving DecidableEq, Repr

abbrev PRes (α : Type) := Except ParseStop α

/-- `do i = m_ctype.scan_not(std::ctype_base::alnum, i + 1, m_end); while (i != m_end && *i == m_dash)`, starting after the first dash, and
the loop for keywords: spec_parser.hpp:794-795 and 854-859. The result is what is skipped, and what remains. -/
def scanWord (env : Env) : Str → Str × Str
  | [] => ([], [])
  | c :: s => if env.alnum c || c == 45 then ((c :: (scanWord env s).1), (scanWord env s).2) else ([], c :: s)

/-- `extract_next_token()` after the spaces: spec_parser.hpp:775-870. The result is the type of the token, the lexeme, and what remains. -/
def extractToken (env : Env) : Str → PRes (TokType × Str × Str)
  | [] => .ok (.endOfInput, [], [])
  | c :: s =>
    let ch := env.narrow c
    let other : PRes (TokType × Str × Str) :=
      if ch = 45 || env.alnum ch then .ok (.keyword, c :: (scanWord env s).1, (scanWord env s).2)
      else .error (.error (.invalidToken [c]))
    if ch = 45 then
      match s with
      | [] => other
      | d :: s' =>
        if d = 45 then .ok (.longOption, c :: d :: (scanWord env s').1, (scanWord env s').2)
        else if d ≠ 32 then .ok (.shortOption, [c, d], s')
        else other
    else if ch = 60 then
      match s.dropWhile (· != 62) with
      | [] => .error (.error .missingClosing)
      | d :: s' => .ok (.valueSlot, c :: s.takeWhile (· != 62) ++ [d], s')
    else if ch = 40 then .ok (.leftParenthesis, [c], s)
    else if ch = 41 then .ok (.rightParenthesis, [c], s)
    else if ch = 91 then .ok (.leftSqBracket, [c], s)
    else if ch = 93 then .ok (.rightSqBracket, [c], s)
    else if ch = 46 then
      match s with
      | d :: s' =>
        if d = 46 then
          match s' with
          | d' :: s'' => if d' = 46 then .ok (.ellipsis, [c, d, d'], s'') else .error (.error (.invalidToken [c, d]))
          | [] => .error (.error (.invalidToken [c, d]))
        else .error (.error (.invalidToken [c]))
      | [] => .error (.error (.invalidToken [c]))
    else if ch = 124 then .ok (.verticalBar, [c], s)
    else if ch = 44 then .ok (.comma, [c], s)
    else other

/-- The case of a space: spec_parser.hpp:783-788. The first character of a run of spaces is one that is narrowed to a space. The following
ones are compared with the widened space, and then the function starts over. The result is whether there are spaces, and what remains. -/
def skipSpaces (env : Env) (spaced : Bool) : Str → Bool × Str
  | [] => (spaced, [])
  | c :: s => if env.narrow c = 32 || (spaced && c == 32) then skipSpaces env true s else (spaced, c :: s)

/-- `extract_next_token()`: spec_parser.hpp:767-871. -/
def extractNextToken (env : Env) (s : Str) : PRes (Token × Str) := do
  let (spaced, s) := skipSpaces env false s
  let (type, lexeme, rest) ← extractToken env s
  .ok (⟨type, lexeme, spaced⟩, rest)

/-- The state of the parser: `m_curr`, `m_next_token`, `m_nodes`, and `m_has_value_slot`: spec_parser.hpp:112-117. -/
structure PState where
  rest : Str
  next : Token
  nodes : List Node
  hasValueSlot : Bool
deriving DecidableEq, Repr

/-- `Result`: spec_parser.hpp:102-105. -/
structure PResult where
  nodeIndex : Nat
  precedence : Nat
deriving DecidableEq, Repr

/-- `extract_next_token()` as an update of the state: spec_parser.hpp:867-870. -/
def PState.advance (env : Env) (st : PState) : PRes PState := do
  let (t, rest) ← extractNextToken env st.rest
  .ok { st with rest := rest, next := t }

/-- `m_nodes.push_back(node)`, and the index of the new node. -/
def PState.push (st : PState) (node : Node) : PState × Nat := ({ st with nodes := st.nodes ++ [node] }, st.nodes.length)

/-- `is_concat`: spec_parser.hpp:672-677. -/
def isConcat : TokType → Bool
  | .keyword | .shortOption | .longOption | .valueSlot | .leftSqBracket | .leftParenthesis => true
  | _ => false

/-- The first four cases of `parse_element()`: spec_parser.hpp:717-733. -/
def tokenNode : TokType → Option NodeType
  | .keyword => some .keyword
  | .shortOption => some .shortOption
  | .longOption => some .longOption
  | .valueSlot => some .valueSlot
  | _ => none

mutual

/-- `parse_alternatives()`: spec_parser.hpp:647-650. -/
def parseAlternatives (env : Env) : Nat → PState → PRes (PResult × PState)
  | 0, _ => .error .unfinished
  | fuel + 1, st => do
    let (result, st) ← parseJuxtaposition env fuel st
    alternativesLoop env fuel result st

/-- The loop of `parse_alternatives()`: spec_parser.hpp:651-664. -/
def alternativesLoop (env : Env) : Nat → PResult → PState → PRes (PResult × PState)
  | 0, _, _ => .error .unfinished
  | fuel + 1, result, st =>
    if st.next.type ≠ .verticalBar then .ok (result, st)
    else do
      let st ← st.advance env
      let (right, st) ← parseJuxtaposition env fuel st
      let (st, i) := st.push ⟨.alternatives, result.nodeIndex, right.nodeIndex, []⟩
      alternativesLoop env fuel ⟨i, 1⟩ st

/-- `parse_juxtaposition()`: spec_parser.hpp:667-670. -/
def parseJuxtaposition (env : Env) : Nat → PState → PRes (PResult × PState)
  | 0, _ => .error .unfinished
  | fuel + 1, st => do
    let (result, st) ← parseRepetition env fuel st
    juxtapositionLoop env fuel result st

/-- The loop of `parse_juxtaposition()`: spec_parser.hpp:671-691. -/
def juxtapositionLoop (env : Env) : Nat → PResult → PState → PRes (PResult × PState)
  | 0, _, _ => .error .unfinished
  | fuel + 1, result, st =>
    if !isConcat st.next.type then .ok (result, st)
    else if !st.next.precededBySpace then .error (.error .needSpace)
    else do
      let (right, st) ← parseRepetition env fuel st
      let (st, i) := st.push ⟨.juxtaposition, result.nodeIndex, right.nodeIndex, []⟩
      juxtapositionLoop env fuel ⟨i, 2⟩ st

/-- `parse_repetition()`: spec_parser.hpp:694-697. -/
def parseRepetition (env : Env) : Nat → PState → PRes (PResult × PState)
  | 0, _ => .error .unfinished
  | fuel + 1, st => do
    let (result, st) ← parseElement env fuel st
    repetitionLoop env fuel result st

/-- The loop of `parse_repetition()`: spec_parser.hpp:698-710. -/
def repetitionLoop (env : Env) : Nat → PResult → PState → PRes (PResult × PState)
  | 0, _, _ => .error .unfinished
  | fuel + 1, result, st =>
    if st.next.type ≠ .ellipsis then .ok (result, st)
    else do
      let st ← st.advance env
      let (st, i) := st.push ⟨.repetition, result.nodeIndex, 0, []⟩
      repetitionLoop env fuel ⟨i, 3⟩ st

/-- `parse_element()`: spec_parser.hpp:713-764. -/
def parseElement (env : Env) : Nat → PState → PRes (PResult × PState)
  | 0, _ => .error .unfinished
  | fuel + 1, st =>
    match tokenNode st.next.type with
    | some type => do
      let lexeme := st.next.lexeme
      let st := if type = .valueSlot then { st with hasValueSlot := true } else st
      let st ← st.advance env
      let (st, i) := st.push ⟨type, 0, 0, lexeme⟩
      .ok (⟨i, 4⟩, st)
    | none =>
      if st.next.type = .leftSqBracket then do
        let st ← st.advance env
        let (left, st) ← parseAlternatives env fuel st
        if st.next.type ≠ .rightSqBracket then .error (.error .unclosedSquareBracket)
        else do
          let st ← st.advance env
          let (st, i) := st.push ⟨.optionality, left.nodeIndex, 0, []⟩
          .ok (⟨i, 4⟩, st)
      else if st.next.type = .leftParenthesis then do
        let st ← st.advance env
        let (inner, st) ← parseAlternatives env fuel st
        if st.next.type ≠ .rightParenthesis then .error (.error .unclosedParenthesis)
        else do
          let st ← st.advance env
          .ok (⟨inner.nodeIndex, 4⟩, st)
      else .error (.error .badStart)

end

/-- The loop of `parse_sequence()`: spec_parser.hpp:631-644. -/
def sequenceLoop (env : Env) : Nat → PResult → PState → PRes (PResult × PState)
  | 0, _, _ => .error .unfinished
  | fuel + 1, result, st =>
    if st.next.type ≠ .comma then .ok (result, st)
    else do
      let st ← st.advance env
      let (right, st) ← parseAlternatives env fuel st
      let (st, i) := st.push ⟨.sequence, result.nodeIndex, right.nodeIndex, []⟩
      sequenceLoop env fuel ⟨i, 0⟩ st

/-- `parse_sequence()`: spec_parser.hpp:627-645. -/
def parseSequence (env : Env) (fuel : Nat) (st : PState) : PRes (PResult × PState) := do
  let (result, st) ← parseAlternatives env fuel st
  sequenceLoop env fuel result st

/-- `parse()`: spec_parser.hpp:617-624. -/
def parseAll (env : Env) (fuel : Nat) (st : PState) : PRes (PResult × PState) := do
  let (result, st) ← parseSequence env fuel st
  if st.next.type ≠ .endOfInput then .error (.error (.unexpectedToken st.next.lexeme))
  else .ok (result, st)

/-- `reset()`: spec_parser.hpp:604-614. Also, whether there is anything in the input. -/
def resetParser (env : Env) (spec : Str) : PRes (Bool × PState) := do
  let st ← PState.advance env ⟨spec, ⟨.endOfInput, [], false⟩, [], false⟩
  .ok (decide (st.next.type ≠ .endOfInput), st)

/-- `parse_pattern()` up to the recording of the structure: spec_parser.hpp:232-246. The result is the index of the root node, if the
pattern is not empty, and the nodes. -/
def parsePattern (env : Env) (fuel : Nat) (pattern : Str) (isDeleg : Bool) : PRes (Option Nat × List Node) := do
  let (nonempty, st) ← resetParser env pattern
  if nonempty then do
    let (result, st) ← parseAll env fuel st
    if result.precedence = 0 then .error (.error .multiplePatterns)
    else if result.precedence = 1 then .error (.error .unparenthesizedAlternatives)
    else if st.hasValueSlot && isDeleg then .error (.error .valueSlotsInDeleg)
    else .ok (some result.nodeIndex, st.nodes)
  else .ok (none, st.nodes)

end Verif.CliSpec
