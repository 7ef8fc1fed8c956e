import Mathlib.Data.List.Sort
import Verif.CliProc.Process
import Verif.CliPattern.Descs
/-!
Model of `BasicProcessor::process()` in /repo/src/archon/cli/processor.hpp, and of `Processor::invoke_options()` in
/repo/src/archon/cli/impl/processor.hpp.

The outcome `none` is a violated assertion, an index out of range, or that the limit on the number of steps was too low. What can be changed by actions
of options, functions of patterns, and error handlers is represented by a state of type `σ`. They do not throw exceptions.
-/
namespace Verif.CliProc

open Verif.CliPattern Verif.CliSpec

/-- An error: It is one of those of `Processor::process()`, or it is one of those of /repo/src/archon/cli/impl/processor.hpp:455-457, or
/repo/src/archon/cli/impl/pattern_args_parser.hpp:433-434. The context of an option, and the text of a value slot are left out. -/
inductive Report where
  | processing (m : Message)
  | badOptionArg (value form : Str)
  | badPatternArg (value : Str)
deriving DecidableEq, Repr

/-- What actions of options do, `OptionAction::invoke_without_arg()`, and `OptionAction::invoke_with_arg()`:
/repo/src/archon/cli/impl/option_action.hpp:58-59. The number is the index of the option. -/
abbrev Act (σ : Type) := Nat → Option Str → σ → Bool × σ

/-- `BasicCommandLine::Parent`: /repo/src/archon/cli/command_line.hpp:103-109. The command line of the parent is given by the list that this is in. The text of
the pattern is left out. `act` is what the invocations refer to. -/
structure Level (σ : Type) where
  act : Act σ
  invocations : List Invocation
  errors : List (Nat × Report)
  hasError : Bool

/-- What is associated with the options and patterns of a specification: Actions of options, functions of patterns, and functions that processing is
delegated to: /repo/src/archon/cli/impl/pattern_action.hpp:138-211. The exit status is `EXIT_SUCCESS` if the function of a pattern does not return an
exit status. -/
structure App (σ : Type) where
  act : Act σ
  func : Nat → Val → σ → Int × σ
  deleg : Nat → List (Level σ) → Nat → σ → Int × σ

/-- `RootState`: /repo/src/archon/cli/impl/root_state.hpp:56-63. Arguments are in `Ctx`. `parse` is whether a value can be parsed, and `log` is the logging of an
error message. -/
structure Root (σ : Type) where
  parse : Ty → Str → Bool
  handler : Option (List (Nat × Report) → Int → σ → Int × σ)
  log : Report → σ → σ

/-- `EXIT_SUCCESS` -/
def exitSuccess : Int := 0

/-- `EXIT_FAILURE` -/
def exitFailure : Int := 1

/-- What is modified by `invoke_options()`. -/
structure Acc (σ : Type) where
  errors : List (Nat × Report)
  hasError : Bool
  world : σ

variable {σ : Type}

/-- The body of the loop in `Processor::invoke_options()`: impl/processor.hpp:430-458. -/
def invokeOption (args : List Str) (act : Act σ) (a : Acc σ) (x : Invocation) : Option (Acc σ) := do
  match ← argOf args x.occurrence with
  | none => some { a with world := (act x.option none a.world).2 }
  | some value =>
    let r := act x.option (some value) a.world
    if r.1 then some { a with world := r.2 }
    else do
      let arg ← args[x.occurrence.argIndex]?
      let form ← optForm arg x.occurrence
      some ⟨a.errors ++ [(x.occurrence.argIndex, .badOptionArg value form)], true, r.2⟩

/-- `Processor::invoke_options()`: impl/processor.hpp:424-459. -/
def invokeOptions (args : List Str) (act : Act σ) : Acc σ → List Invocation → Option (Acc σ)
  | a, [] => some a
  | a, x :: l => do
    let a ← invokeOption args act a x
    invokeOptions args act a l

/-- `BasicProcessor::invoke_options()` up to the last line: processor.hpp:757-763. Parents are in order from the root. -/
def invokeParents (args : List Str) : Acc σ → List (Level σ) → Option (Acc σ)
  | a, [] => some a
  | a, p :: ps => do
    let a ← invokeOptions args p.act a p.invocations
    invokeParents args a ps

/-- `m_command_line.m_parent->has_error`: processor.hpp:419-422. -/
def parentHasError (parents : List (Level σ)) : Bool :=
  match parents.getLast? with
  | some p => p.hasError
  | none => false

/-- `BasicLoggingErrorHandler::handle()`, for the default value of `max_errors`: /repo/src/archon/cli/logging_error_handler.hpp:78-84, and 50. -/
def defaultHandler (log : Report → σ → σ) (errors : List (Nat × Report)) (exitStatus : Int) (w : σ) : Int × σ :=
  (exitStatus, (errors.take (min errors.length 8)).foldl (fun w x => log x.2 w) w)

/-- `report_errors()`, and `gather_errors()`: processor.hpp:723-754. `std::stable_sort()` is represented by insertion sort. -/
def reportErrors (root : Root σ) (parents : List (Level σ)) (errors : List (Nat × Report)) (w : σ) : Int × σ :=
  let errors := parents.flatMap Level.errors ++ errors
  let errors := errors.insertionSort (fun x y => x.1 ≤ y.1)
  match root.handler with
  | some handle => handle errors exitFailure w
  | none => defaultHandler root.log errors exitFailure w

/-- What `process()` returns, what is assigned to `exit_status`, and the state at the end. -/
abbrev Result (σ : Type) := Bool × Option Int × σ

/-- From label `error` in `process()`: processor.hpp:466-468. -/
def failWith (root : Root σ) (parents : List (Level σ)) (errors : List (Nat × Report)) (w : σ) : Result σ :=
  let r := reportErrors root parents errors w
  (true, some r.1, r.2)

/-- After a successful invocation of the action of a pattern: processor.hpp:438-443. -/
def succeedWith (completing : Bool) (exitStatus : Int) (w : σ) : Result σ := if !completing then (false, none, w) else (true, some exitStatus, w)

/-- Whether an argument can be parsed: pattern_args_parser.hpp:425-426. -/
def goodArg (root : Root σ) (args : List Str) (τ : Ty) (a : Nat) : Bool := root.parse τ (args[a]?.getD [])

/-- The errors of `PatternArgsParser::parse()`: pattern_args_parser.hpp:433-434. -/
def badArgs (args : List Str) (l : List Nat) : List (Nat × Report) := l.map fun a => (a, .badPatternArg (args[a]?.getD []))

/-- The invocation of the action of a pattern, and what follows: processor.hpp:430-445, 353-356, and /repo/src/archon/cli/impl/pattern_action.hpp:159-179. -/
def invokePattern (root : Root σ) (app : App σ) (c : Ctx) (t : Tables) (parents : List (Level σ)) (k : Nat) (info : PatternInfo) (descs : List Desc)
    (a : Acc σ) : Option (Result σ) :=
  match info.action with
  | .null => if !a.hasError then some (succeedWith info.completing 0 a.world) else some (failWith root parents a.errors a.world)
  | .func ts => do
    let (vs, bad) ← parseArgs t (goodArg root c.args) c.args.length ts descs
    if bad.isEmpty && !a.hasError then
      let r := app.func k vs a.world
      some (succeedWith info.completing r.1 r.2)
    else some (failWith root parents (a.errors ++ badArgs c.args bad) a.world)
  | .deleg => none

/-- `process()`, and `do_process()`: processor.hpp:410-469, and 671-708. The action of a short-circuit option is invoked by `Processor::process()`:
impl/processor.hpp:318-324. -/
def processAll (fuel : Nat) (root : Root σ) (app : App σ) (c : Ctx) (t : Tables) (m : Matcher) (parents : List (Level σ)) (offset : Nat) (w : σ) :
    Option (Result σ) := do
  let (o, s) ← process fuel c offset m (parentHasError parents) [] []
  let errors := s.errors.map fun x => (x.1, Report.processing x.2)
  match o with
  | .shorted j => some (true, some exitSuccess, (app.act j none w).2)
  | .deleg k d =>
    if offset ≤ d then
      let r := app.deleg k (parents ++ [⟨app.act, s.invocations, errors, s.hasError⟩]) d w
      some (true, some r.1, r.2)
    else none
  | .invoke k => do
    let a ← invokeParents c.args ⟨errors, s.hasError, w⟩ parents
    let a ← invokeOptions c.args app.act a s.invocations
    let info ← c.patterns[k]?
    let entries ← s.matcher.backtrack
    let descs ← generateDescs fuel t info.elemSeqIndex entries
    invokePattern root app c t parents k info descs a
  | .failed => do
    let a ← invokeParents c.args ⟨errors, s.hasError, w⟩ parents
    let a ← invokeOptions c.args app.act a s.invocations
    if a.hasError then some (failWith root parents a.errors a.world) else none

end Verif.CliProc
