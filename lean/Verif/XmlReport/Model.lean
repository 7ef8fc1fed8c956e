import Mathlib.Data.List.Basic

/-!
# Model of the XML reporter of the check library

* `check::XmlReporter`: `src/archon/check/xml_reporter.cpp` and `xml_reporter.hpp`

The reporter is a state machine that is driven by invocations of `begin()`, `fail()`, and `end()`,
and that produces its output when `root_end()` is invoked.

Simplifications: text is a list of characters; writing to the stream does not fail; numbers are
written in decimal notation without grouping; the elapsed times are represented by what is written
for them.
-/

namespace Verif.XmlReport

/-- What is written for one character (`src/archon/check/xml_reporter.cpp:50-68`). -/
def escapeChar (ch : Char) : List Char :=
  if ch = '&' then ['&', 'a', 'm', 'p', ';']
  else if ch = '<' then ['&', 'l', 't', ';']
  else if ch = '>' then ['&', 'g', 't', ';']
  else if ch = '\'' then ['&', 'a', 'p', 'o', 's', ';']
  else if ch = '"' then ['&', 'q', 'u', 'o', 't', ';']
  else [ch]

/-- `operator<<(std::ostream&, const AsXmlEscaped&)`
(`src/archon/check/xml_reporter.cpp:45-71`). -/
def escape (s : List Char) : List Char := s.flatMap escapeChar

/-- The string view in `Failure::file_path` (`src/archon/check/xml_reporter.hpp:58-62`). `test`: it
refers to the mapped path of the test, which exists until the end of the run
(`src/archon/check/noinst/thread_context_impl.cpp:160-161` and `:181-183`). `cache`: it refers to
the cache of the thread context (`src/archon/check/noinst/thread_context_impl.cpp:184-191`), which
is gone when `root_end()` is invoked (`src/archon/check/test_runner.cpp:353-402`). -/
inductive PathRef where
  | test (path : List Char)
  | cache (path : List Char)
deriving DecidableEq, Repr

/-- `XmlReporter::Failure` (`src/archon/check/xml_reporter.hpp:58-62`). -/
structure Failure where
  filePath : PathRef
  line : Int
  message : List Char
deriving DecidableEq, Repr

/-- `XmlReporter::Test` (`src/archon/check/xml_reporter.hpp:64-67`). -/
structure Test where
  failures : List Failure := []
  elapsed : List Char := ['0']
deriving DecidableEq, Repr

/-- `XmlReporter::key_type` (`src/archon/check/xml_reporter.hpp:70`): test index and repetition
number. -/
abbrev Key := Nat × Nat

/-- `operator<` of keys. -/
def keyLt (a b : Key) : Bool := decide (a.1 < b.1) || (decide (a.1 = b.1) && decide (a.2 < b.2))

/-- Invocations of the functions of the reporter. -/
inductive Call where
  | begin_ (key : Key)
  | fail (key : Key) (failure : Failure)
  | end_ (key : Key) (elapsed : List Char)
deriving DecidableEq, Repr

/-- `std::map::emplace()`: insertion unless there is already an entry with the same key. -/
def emplace (key : Key) : List (Key × Test) → List (Key × Test)
  | [] => [(key, {})]
  | (k, t) :: rest =>
    if keyLt key k then (key, {}) :: (k, t) :: rest
    else if key = k then (k, t) :: rest
    else (k, t) :: emplace key rest

/-- Modification of the entry with the specified key, or `none` if there is no such entry. -/
def modify (key : Key) (f : Test → Test) : List (Key × Test) → Option (List (Key × Test))
  | [] => none
  | (k, t) :: rest =>
    if key = k then some ((k, f t) :: rest)
    else
      match modify key f rest with
      | none => none
      | some rest => some ((k, t) :: rest)

/-- `XmlReporter::begin()`, `fail()`, and `end()` (`src/archon/check/xml_reporter.cpp:80-107`).
`none` means that an assertion fails. -/
def call (m : List (Key × Test)) : Call → Option (List (Key × Test))
  | .begin_ key => some (emplace key m)
  | .fail key failure => modify key (fun t => { t with failures := t.failures ++ [failure] }) m
  | .end_ key elapsed => modify key (fun t => { t with elapsed := elapsed }) m

/-- A sequence of invocations. -/
def calls : List (Key × Test) → List Call → Option (List (Key × Test))
  | m, [] => some m
  | m, c :: rest =>
    match call m c with
    | none => none
    | some m => calls m rest

/-- Decimal notation of natural numbers. -/
def showNat (n : Nat) : List Char := Nat.toDigits 10 n

/-- Decimal notation of integers. -/
def showInt : Int → List Char
  | .ofNat n => showNat n
  | .negSucc n => '-' :: showNat (n + 1)

/-- `check::Summary` as far as it is written (`src/archon/check/xml_reporter.cpp:112-118`). -/
structure Summary where
  tests : Nat
  failedTests : Nat
  checks : Nat
  failures : Nat
  time : List Char

/-- The names of the tests, and the number of repetitions. -/
structure Context where
  testName : Nat → List Char
  numRepetitions : Nat

/-- The name under which a test execution is reported
(`src/archon/check/xml_reporter.cpp:126-128`). -/
def reportName (context : Context) (key : Key) : List Char :=
  if context.numRepetitions > 1 then context.testName key.1 ++ ['#'] ++ showNat key.2
  else context.testName key.1

/-- Reading through a string view when `root_end()` is invoked. `none` means that what it refers to
is gone (undefined behavior). -/
def deref : PathRef → Option (List Char)
  | .test path => some path
  | .cache _ => none

/-- What is written for one failure (`src/archon/check/xml_reporter.cpp:139-142`). -/
def writeFailure (f : Failure) : Option (List Char) :=
  match deref f.filePath with
  | none => none
  | some path => some ("    <failure message=\"".toList ++ path ++ "(".toList ++ showInt f.line ++
      ") : ".toList ++ escape f.message ++ "\"/>\n".toList)

/-- What is written for a list of failures (`src/archon/check/xml_reporter.cpp:139-142`). -/
def writeFailures : List Failure → Option (List Char)
  | [] => some []
  | f :: rest =>
    match writeFailure f, writeFailures rest with
    | some a, some b => some (a ++ b)
    | _, _ => none

/-- What is written for one test execution (`src/archon/check/xml_reporter.cpp:120-144`). -/
def writeTest (suite : List Char) (context : Context) (key : Key) (t : Test) : Option (List Char) :=
  let head := "  <test suite=\"".toList ++ escape suite ++ "\" name=\"".toList ++
    escape (reportName context key) ++ "\" time=\"".toList ++ t.elapsed ++ "\"".toList
  if t.failures = [] then some (head ++ "/>\n".toList)
  else
    match writeFailures t.failures with
    | none => none
    | some body => some (head ++ ">\n".toList ++ body ++ "  </test>\n".toList)

/-- What is written for all the test executions (`src/archon/check/xml_reporter.cpp:120-145`). -/
def writeTests (suite : List Char) (context : Context) : List (Key × Test) → Option (List Char)
  | [] => some []
  | (key, t) :: rest =>
    match writeTest suite context key t, writeTests suite context rest with
    | some a, some b => some (a ++ b)
    | _, _ => none

/-- `XmlReporter::root_end()` (`src/archon/check/xml_reporter.cpp:110-147`). `none` means undefined
behavior. -/
def rootEnd (suite : List Char) (context : Context) (summary : Summary) (m : List (Key × Test)) :
    Option (List Char) :=
  match writeTests suite context m with
  | none => none
  | some body => some ("<?xml version=\"1.0\"?>\n<unittest-results tests=\"".toList ++
      showNat summary.tests ++ "\" failedtests=\"".toList ++ showNat summary.failedTests ++
      "\" checks=\"".toList ++ showNat summary.checks ++ "\" failures=\"".toList ++
      showNat summary.failures ++ "\" time=\"".toList ++ summary.time ++ "\">\n".toList ++ body ++
      "</unittest-results>\n".toList)

end Verif.XmlReport
