import Verif.CliSpec.Construct
/-!
Model of `Processor::process()`, and of the extraction of option arguments in `Processor::invoke_options()`, in
/repo/src/archon/cli/impl/processor.hpp.

The outcome `none` is a violated assertion, an index out of range, or that the limit on the number of steps was too low. Error messages are
represented by the kind of message, and by the strings that are formatted into it, but without quotes, and without the elimination of what
is too long. Actions of options are represented by the index of the option. Decoding of arguments is left out, as is widening.
-/
namespace Verif.CliProc

open Verif.CliPattern Verif.CliSpec

/-- `char_mapper.widen('-')`: processor.hpp:176. -/
def dash : Nat := 45

/-- `char_mapper.widen('=')`: processor.hpp:177. -/
def equal : Nat := 61

/-- `OptionOccurrence`: /repo/src/archon/cli/impl/option_occurrence.hpp:31-42. -/
structure Occurrence where
  argIndex : Nat
  hasValue : Bool
  leadEnd : Nat
  nameBegin : Nat
  nameEnd : Nat
  valueBegin : Nat
deriving DecidableEq, Repr

/-- `OptionInvocation`: /repo/src/archon/cli/impl/option_invocation.hpp. The index of the option stands for its action. -/
structure Invocation where
  option : Nat
  occurrence : Occurrence
deriving DecidableEq, Repr

/-- The error messages: processor.hpp:192-193, 359-360, 363-365, 368-370, 376-377, 381-383, 387-390, 396-398, and 401-403. Here, `form` is what is
built by `build_opt_form()`, and `context` is what is built by `build_opt_context()`. -/
inductive Message where
  | tooFew
  | unknown (form : Str)
  | unknownIn (form context : Str)
  | unknownInCompound (form context : Str)
  | missing (form : Str)
  | missingIn (form context : Str)
  | notAllowed (value form context : Str)
  | mismatching (arg : Str)
  | extraneous (arg : Str)
deriving DecidableEq, Repr

/-- The labels in `process()`: processor.hpp:185-418. -/
inductive Label where
  | nextArg1 | nextArg2 | maybeShort | shortForm | longForm | withoutArg | withArg | invoke | deleg | unknown | missing | notAllowed | rejected
  | matchError | error
deriving DecidableEq, Repr

/-- What is not modified by `process()`: The command-line arguments (`m_root_state.args`), and `m_spec`. -/
structure Ctx where
  args : List Str
  reg : Registry
  patterns : List PatternInfo

/-- The local variables of `process()`, and the data members that it modifies: processor.hpp:112-118, and 163-173. The parameter
`option_invocations`, and the errors in the error accumulator are also here. Where the code has a null pointer, the model has `none`. -/
structure St where
  argIndex : Nat
  hasMatchError : Bool
  valuesOnly : Bool
  offset : Nat
  optInPattern : Bool
  protoIndex : Nat
  pat : Option Nat
  opt : Option (Nat × OptionInfo)
  arg1 : Str
  occ : Occurrence
  matcher : Matcher
  hasError : Bool
  invocations : List Invocation
  errors : List (Nat × Message)

/-- The ways in which `process()` returns: After having invoked the action of a short-circuit option, with a pattern to invoke, with a
delegating pattern, and the offset of delegation, and with the result `false`. -/
inductive Outcome where
  | shorted (option : Nat)
  | invoke (pattern : Nat)
  | deleg (pattern offset : Nat)
  | failed
deriving DecidableEq, Repr

/-- What comes next: To go on from a label, or to return. -/
inductive Next where
  | goto (l : Label) (s : St)
  | ret (o : Outcome) (s : St)

/-- `Processor::error()`: processor.hpp:530-536, and /repo/src/archon/cli/impl/error_accum.hpp:87-95. -/
def St.error (s : St) (argIndex : Nat) (m : Message) : St := { s with errors := s.errors ++ [(argIndex, m)], hasError := true }

/-- `string_view::substr()`. It is an error if the position is beyond the end. -/
def substr (s : Str) (pos n : Nat) : Option Str := if pos ≤ s.length then some ((s.drop pos).take n) else none

/-- `build_opt_form()`: processor.hpp:490-504. -/
def optForm (arg : Str) (occ : Occurrence) : Option Str := do
  let lead ← substr arg 0 occ.leadEnd
  let name ← substr arg occ.nameBegin (occ.nameEnd - occ.nameBegin)
  some (lead ++ name)

/-- `unpack_option()`: processor.hpp:479-487. -/
def St.unpack (c : Ctx) (s : St) (protoIndex : Nat) : Option St := do
  let proto ← c.reg.protos[protoIndex]?
  let s := { s with protoIndex := protoIndex, optInPattern := proto.patternIndex.isSome }
  match proto.optionIndex with
  | some j => do
    let option ← c.reg.options[j]?
    some { s with opt := some (j, option) }
  | none => some { s with opt := none }

/-- `opt && opt->arg.allow`: processor.hpp:260, and 297. -/
def St.allow (s : St) : Bool :=
  match s.opt with
  | some o => o.2.arg.allow
  | none => false

/-- `opt && opt->arg.require`: processor.hpp:270, and 304. -/
def St.require (s : St) : Bool :=
  match s.opt with
  | some o => o.2.arg.require
  | none => false

/-- The part that tries to consume a value: processor.hpp:240-245. -/
def readValue (s : St) : Option Next := do
  match ← s.matcher.consume ⟨.valueSlot, 0⟩ s.argIndex with
  | some m => some (.goto .nextArg1 { s with matcher := m })
  | none => some (.goto .rejected { s with offset := s.arg1.length })

/-- The part that tries to consume a keyword or a value: processor.hpp:229-247. -/
def readWord (c : Ctx) (s : St) : Option Next :=
  if !s.hasMatchError then
    match (if !s.valuesOnly then c.reg.findKeyword s.arg1 else none) with
    | some i => do
      match ← s.matcher.consume ⟨.keyword, i⟩ s.argIndex with
      | some m => some (.goto .nextArg1 { s with matcher := m })
      | none => readValue s
    | none => readValue s
  else some (.goto .nextArg1 s)

/-- The part that reads an argument: processor.hpp:214-247. -/
def readArg (c : Ctx) (s : St) : Option Next := do
  let arg ← c.args[s.argIndex]?
  let s := { s with arg1 := arg }
  if !s.valuesOnly && decide (2 ≤ arg.length) && (arg[0]? == some dash) then do
    let second ← arg[1]?
    if second = dash then some (.goto .longForm { s with occ := ⟨s.argIndex, false, 2, 0, 0, 0⟩, offset := 2 })
    else some (.goto .shortForm { s with occ := ⟨s.argIndex, false, 1, 0, 0, 0⟩, offset := 1 })
  else readWord c s

/-- From label `next_arg_2`: processor.hpp:188-212. -/
def nextArg2 (c : Ctx) (s : St) : Option Next :=
  if !s.hasMatchError then do
    match ← s.matcher.isMatch with
    | none =>
      if s.argIndex = c.args.length then some (.goto .error { s.error s.argIndex .tooFew with hasMatchError := true })
      else readArg c s
    | some k => do
      let s := { s with pat := some k }
      let pattern ← c.patterns[k]?
      if pattern.action.isDeleg then some (.goto .deleg s)
      else if s.argIndex = c.args.length then if !s.hasError then some (.goto .invoke s) else some (.goto .error s)
      else readArg c s
  else if s.hasError then if s.argIndex = c.args.length then some (.goto .error s) else readArg c s
  else none

/-- From label `short_form_option`: processor.hpp:253-280. -/
def shortForm (c : Ctx) (s : St) : Option Next := do
  let s := { s with occ := { s.occ with nameBegin := s.offset, nameEnd := s.offset + 1 }, offset := s.offset + 1 }
  let char ← s.arg1[s.occ.nameBegin]?
  match c.reg.findShort char with
  | some i => do
    let s ← s.unpack c i
    if !s.allow then
      if s.offset = s.arg1.length ∨ s.arg1[s.offset]? ≠ some dash then some (.goto .withoutArg s) else some (.goto .notAllowed s)
    else if s.offset < s.arg1.length then
      some (.goto .withArg { s with occ := { s.occ with hasValue := true, valueBegin := s.offset } })
    else if !s.require then some (.goto .withoutArg s)
    else if s.argIndex ≠ c.args.length - 1 then
      some (.goto .withArg { s with argIndex := s.argIndex + 1, occ := { s.occ with hasValue := true } })
    else some (.goto .missing s)
  | none => some (.goto .unknown s)

/-- From label `long_form_option`: processor.hpp:282-314. -/
def longForm (c : Ctx) (s : St) : Option Next := do
  let nameEnd := s.offset + ((s.arg1.drop s.offset).findIdx (· == equal))
  let s := { s with occ := { s.occ with nameBegin := s.offset, nameEnd := nameEnd }, offset := nameEnd }
  let name ← substr s.arg1 s.occ.nameBegin (s.occ.nameEnd - s.occ.nameBegin)
  match c.reg.findLong name with
  | some i => do
    let s ← s.unpack c i
    if s.offset < s.arg1.length then
      if s.arg1[s.offset]? = some equal then
        let s := { s with offset := s.offset + 1 }
        if s.allow then
          some (.goto .withArg { s with occ := { s.occ with hasValue := true, valueBegin := s.offset } })
        else some (.goto .notAllowed s)
      else none
    else if !s.require then some (.goto .withoutArg s)
    else if s.argIndex ≠ c.args.length - 1 then
      some (.goto .withArg { s with argIndex := s.argIndex + 1, occ := { s.occ with hasValue := true } })
    else some (.goto .missing s)
  | none => some (.goto .unknown s)

/-- The last part of label `option_without_arg`: processor.hpp:328-332. -/
def consumeOption (s : St) : Option Next :=
  if s.optInPattern && !s.hasMatchError then do
    match ← s.matcher.consume ⟨.protoOption, s.protoIndex⟩ s.argIndex with
    | some m => some (.goto .maybeShort { s with matcher := m })
    | none => some (.goto .rejected s)
  else some (.goto .maybeShort s)

/-- From label `option_without_arg`: processor.hpp:316-332. -/
def withoutArg (s : St) : Option Next :=
  match s.opt with
  | some (j, option) =>
    if option.shortCircuit then some (.ret (.shorted j) s)
    else
      let s := { s with invocations := s.invocations ++ [⟨j, s.occ⟩] }
      let s := if option.furtherArgs then { s with valuesOnly := true } else s
      consumeOption s
  | none => consumeOption s

/-- From label `option_with_arg`: processor.hpp:334-338. -/
def withArg (s : St) : Option Next :=
  match s.opt with
  | some (j, _) => if !s.optInPattern then some (.goto .nextArg1 { s with invocations := s.invocations ++ [⟨j, s.occ⟩] }) else none
  | none => none

/-- From label `unknown_option`: processor.hpp:355-371. -/
def unknownOption (s : St) : Option Next := do
  let s := { s with offset := s.arg1.length }
  let form ← optForm s.arg1 s.occ
  if s.occ.nameBegin = s.occ.leadEnd then
    if s.offset = s.arg1.length then some (.goto .matchError (s.error s.argIndex (.unknown form)))
    else some (.goto .matchError (s.error s.argIndex (.unknownIn form s.arg1)))
  else some (.goto .matchError (s.error s.argIndex (.unknownInCompound form s.arg1)))

/-- From label `missing_option_arg`: processor.hpp:373-384. -/
def missingArg (s : St) : Option Next := do
  let form ← optForm s.arg1 s.occ
  if s.occ.nameBegin = s.occ.leadEnd ∧ s.offset = s.arg1.length then some (.goto .nextArg1 (s.error s.argIndex (.missing form)))
  else some (.goto .nextArg1 (s.error s.argIndex (.missingIn form s.arg1)))

/-- From label `no_option_arg_allowed`: processor.hpp:386-391. -/
def notAllowed (s : St) : Option Next := do
  let form ← optForm s.arg1 s.occ
  let value ← substr s.arg1 s.offset s.arg1.length
  some (.goto .nextArg1 (s.error s.argIndex (.notAllowed value form s.arg1)))

/-- From label `rejected_pattern_arg`: processor.hpp:393-404. -/
def rejected (s : St) : Option Next :=
  if !s.hasMatchError then do
    if ← s.matcher.canConsume then some (.goto .matchError (s.error s.argIndex (.mismatching s.arg1)))
    else some (.goto .matchError (s.error s.argIndex (.extraneous s.arg1)))
  else none

/-- From label `pattern_match_error`: processor.hpp:406-416. -/
def matchError (s : St) : Option Next := do
  if !(← s.matcher.canDelegate) then some (.goto .maybeShort { s with hasMatchError := true }) else some (.goto .error s)

/-- From a label to the next: processor.hpp:185-421. -/
def step (c : Ctx) (s : St) : Label → Option Next
  | .nextArg1 => some (.goto .nextArg2 { s with argIndex := s.argIndex + 1 })
  | .nextArg2 => nextArg2 c s
  | .maybeShort => if s.offset = s.arg1.length then some (.goto .nextArg1 s) else some (.goto .shortForm s)
  | .shortForm => shortForm c s
  | .longForm => longForm c s
  | .withoutArg => withoutArg s
  | .withArg => withArg s
  | .invoke => if !s.hasMatchError then do some (.ret (.invoke (← s.pat)) s) else none
  | .deleg => if !s.hasMatchError then do some (.ret (.deleg (← s.pat) s.argIndex) s) else none
  | .unknown => unknownOption s
  | .missing => missingArg s
  | .notAllowed => notAllowed s
  | .rejected => rejected s
  | .matchError => matchError s
  | .error => if s.hasError then some (.ret .failed s) else none

/-- The steps from a label until `process()` returns. The number bounds the number of steps. -/
def run (c : Ctx) : Nat → Label → St → Option (Outcome × St)
  | 0, _, _ => none
  | fuel + 1, l, s => do
    match ← step c s l with
    | .goto l s => run c fuel l s
    | .ret o s => some (o, s)

/-- The state at the beginning of `process()`: processor.hpp:137-156, and 163-173. Here, `errors` is what is already in the error accumulator, and
`invocations` is what is already in `option_invocations`. -/
def start (argsOffset : Nat) (matcher : Matcher) (parentHasError : Bool) (invocations : List Invocation) (errors : List (Nat × Message)) : St :=
  ⟨argsOffset, false, false, 0, false, 0, none, none, [], ⟨0, false, 0, 0, 0, 0⟩, matcher, parentHasError, invocations, errors⟩

/-- `Processor::process()`: processor.hpp:159-421. -/
def process (fuel : Nat) (c : Ctx) (argsOffset : Nat) (matcher : Matcher) (parentHasError : Bool) (invocations : List Invocation)
    (errors : List (Nat × Message)) : Option (Outcome × St) :=
  if argsOffset ≤ c.args.length then run c fuel .nextArg2 (start argsOffset matcher parentHasError invocations errors) else none

/-- The extraction of the argument of an option in `Processor::invoke_options()`: processor.hpp:430-446. The inner `none` is that there is no
argument. -/
def argOf (args : List Str) (occ : Occurrence) : Option (Option Str) :=
  if !occ.hasValue then some none
  else if occ.argIndex < args.length then
    if occ.valueBegin ≠ 0 then do
      let arg ← args[occ.argIndex]?
      let value ← substr arg occ.valueBegin arg.length
      some (some value)
    else do
      let value ← args[occ.argIndex + 1]?
      some (some value)
  else none

end Verif.CliProc
