import Mathlib.Algebra.Group.Prod
import Mathlib.Data.List.Basic

/-!
# Model of the test runner of the check library

* `check::TestRunner::run()`: `src/archon/check/test_runner.cpp:119-406`
* `check::impl::ThreadContextImpl`: `src/archon/check/noinst/thread_context_impl.cpp` and
  `thread_context_impl.hpp`
* `check::impl::RootContextImpl`: `src/archon/check/noinst/root_context_impl.hpp`
* `ensure_subdir()`: `src/archon/check/test_runner.cpp:64-90`

The part of `run()` that precedes the execution of the tests is a function of the configuration
(`plan`). The execution is a transition system (`step`), with one action for each stretch of code
that a thread executes between two points where it may be interleaved with other threads. What the
test cases do is left open: a running test may perform any number of successful and failing checks,
and may then return or throw. An execution is a sequence of actions (`Reach`), so a statement about
every execution is a statement about every schedule of the threads and every behavior of the tests.

Simplifications: counters are unbounded; a test performs its checks on the testing thread; elapsed
times, log files, and messages are left out; reporters, loggers, and the creation of threads do not
throw. A thread that waits for the mutex is a thread whose next action is not enabled.
-/

namespace Verif.TestRunner

/-! ## Preparation -/

/-- `check::TestDetails` (`src/archon/check/test_details.hpp:48-51`): the name and location of a test. -/
structure Details where
  name : String
  file : String
  line : Int
deriving DecidableEq, Repr

/-- `check::TestList::Entry` (`src/archon/check/test_list.hpp:113-142`). The function that runs the
test is not part of the model. `enabled` is the outcome of `is_enabled_func` (true if there is no
such function). -/
structure Entry where
  details : Details
  enabled : Bool
  allowConcur : Bool
deriving DecidableEq, Repr

/-- `impl::RootContextImpl::Exec` (`src/archon/check/noinst/root_context_impl.hpp:51-54`): one
execution of a test. -/
structure Exec where
  test : Nat
  rep : Nat
deriving DecidableEq, Repr

/-- The parameters of `check::TestConfig` (`src/archon/check/test_config.hpp:118-388`) that are part
of the model. `shuffle` holds the rearrangements effected by the two invocations of `std::shuffle()`
when shuffling is enabled. `hardware` is the value of `std::thread::hardware_concurrency()`.
`mapPath` is the mapping of source paths. -/
structure Config where
  numRepetitions : Int
  numThreads : Int
  shuffle : Option ((List Exec → List Exec) × (List Exec → List Exec)) := none
  abortOnFailure : Bool := false
  filter : Option (Details → Bool) := none
  testOrder : Option (Details → Details → Bool) := none
  mapPath : String → String := id
  seedOverride : Nat := 0
  hardware : Nat := 0

/-- The exceptions thrown by `TestRunner::run()` (`src/archon/check/test_runner.cpp:121-124`,
`src/archon/check/test_runner.cpp:160-163`). -/
inductive RunError where
  | badRepetitions
  | badThreads
  | duplicate (first second : Entry)
deriving DecidableEq, Repr

/-- The state of the loop over the test list (`src/archon/check/test_runner.cpp:129-134`). `seen`
is the map from names to entries, kept in order of insertion. -/
structure Selection where
  included : List Entry := []
  numEnabled : Nat := 0
  numDisabled : Nat := 0
  seen : List Entry := []
deriving DecidableEq, Repr

/-- One iteration of the loop over the test list (`src/archon/check/test_runner.cpp:135-175`). -/
def selectOne (filter : Option (Details → Bool)) (s : Selection) (entry : Entry) :
    Except RunError Selection :=
  match s.seen.find? (fun other => other.details.name == entry.details.name) with
  | some other => .error (.duplicate other entry)
  | none =>
    let s := { s with seen := s.seen ++ [entry] }
    if !entry.enabled then
      .ok { s with numDisabled := s.numDisabled + 1 }
    else
      let s := { s with numEnabled := s.numEnabled + 1 }
      let keep := match filter with
        | none => true
        | some f => f entry.details
      if !keep then .ok s
      else .ok { s with included := s.included ++ [entry] }

/-- The loop over the test list (`src/archon/check/test_runner.cpp:133-176`). -/
def select (filter : Option (Details → Bool)) : Selection → List Entry → Except RunError Selection
  | s, [] => .ok s
  | s, entry :: rest =>
    match selectOne filter s entry with
    | .error err => .error err
    | .ok s => select filter s rest

/-- Largest value of type `int`. -/
def maxInt : Nat := 2 ^ 31 - 1

/-- The number of threads, as far as it follows from the configuration
(`src/archon/check/test_runner.cpp:180-195`). -/
def configuredThreads (numThreads : Int) (hardware : Nat) : Nat :=
  if numThreads < 1 then
    if hardware > 0 then
      if hardware ≤ maxInt then hardware else maxInt
    else 1
  else numThreads.toNat

/-- Sorting of the selected tests (`src/archon/check/test_runner.cpp:198-204`). `std::stable_sort()`
is taken to be a stable sort. -/
def sortTests (order : Option (Details → Details → Bool)) (tests : List Entry) : List Entry :=
  match order with
  | none => tests
  | some less => tests.mergeSort (fun a b => !less b.details a.details)

/-- The inner loop over the selected tests (`src/archon/check/test_runner.cpp:211-219`). -/
def repeatOnce (numThreads i : Nat) (tests : List Entry) (j : Nat)
    (acc : List Exec × List Exec) : List Exec × List Exec :=
  match tests with
  | [] => acc
  | test :: rest =>
    let exec : Exec := ⟨j, i + 1⟩
    let acc := if test.allowConcur && numThreads > 1 then (acc.1 ++ [exec], acc.2)
      else (acc.1, acc.2 ++ [exec])
    repeatOnce numThreads i rest (j + 1) acc

/-- The loop over the repetitions (`src/archon/check/test_runner.cpp:207-220`): concurrent and
nonconcurrent executions. -/
def repeatAll (numThreads : Nat) (tests : List Entry) : Nat → List Exec × List Exec
  | 0 => ([], [])
  | i + 1 => repeatOnce numThreads i tests 0 (repeatAll numThreads tests i)

/-- Reduction of the number of threads to what is needed
(`src/archon/check/test_runner.cpp:223-229`). -/
def limitThreads (numThreads : Nat) (concur nonconcur : List Exec) : Nat :=
  let maxThreads := if concur.length = 0 ∧ nonconcur ≠ [] then 1 else concur.length
  if maxThreads < numThreads then maxThreads else numThreads

/-- What `TestRunner::run()` has determined when it starts executing tests
(`src/archon/check/test_runner.cpp:346-349`), together with the configuration that is relevant
during execution. -/
structure Env where
  tests : List Entry
  numEnabled : Nat
  numDisabled : Nat
  concur : List Exec
  nonconcur : List Exec
  numThreads : Nat
  numRepetitions : Nat
  abortOnFailure : Bool := false
  mapPath : String → String := id
  seedOverride : Nat := 0

/-- `TestRunner::run()` until the start of the execution of tests
(`src/archon/check/test_runner.cpp:121-237`). -/
def plan (config : Config) (list : List Entry) : Except RunError Env :=
  if config.numRepetitions < 0 then .error .badRepetitions
  else if config.numThreads < 0 then .error .badThreads
  else
    match select config.filter {} list with
    | .error err => .error err
    | .ok s =>
      let numThreads := configuredThreads config.numThreads config.hardware
      let tests := sortTests config.testOrder s.included
      let execs := repeatAll numThreads tests config.numRepetitions.toNat
      let numThreads := limitThreads numThreads execs.1 execs.2
      let execs := match config.shuffle with
        | none => execs
        | some f => (f.1 execs.1, f.2 execs.2)
      .ok {
        tests := tests
        numEnabled := s.numEnabled
        numDisabled := s.numDisabled
        concur := execs.1
        nonconcur := execs.2
        numThreads := numThreads
        numRepetitions := config.numRepetitions.toNat
        abortOnFailure := config.abortOnFailure
        mapPath := config.mapPath
        seedOverride := config.seedOverride }

/-! ## Execution -/

/-- The summary passed to `Reporter::root_end()`
(`src/archon/check/test_runner.cpp:394-402`), without the elapsed time. -/
structure Summary where
  numDisabled : Nat
  numExcluded : Nat
  numSelected : Nat
  numExecutions : Nat
  numFailedExecutions : Nat
  numChecks : Nat
  numFailedChecks : Nat
deriving DecidableEq, Repr

/-- What happens during an execution: invocations of the functions of the reporter, and successful
checks. The first argument is the index of the testing thread. For the beginning of a test
execution, the repetition-dependent part of the random seed is included. For failures, the location
and the mapped path are included. -/
inductive Ev where
  | rootBegin
  | threadBegin (i : Nat)
  | testBegin (i : Nat) (e : Exec) (seed : Nat × Nat)
  | checkOk (i : Nat) (e : Exec)
  | checkFail (i : Nat) (e : Exec) (file : String) (line : Int) (mapped : String)
  | testFail (i : Nat) (e : Exec) (file : String) (line : Int) (mapped : String)
  | testEnd (i : Nat) (e : Exec)
  | threadEnd (i : Nat)
  | rootEnd (summary : Summary)
deriving DecidableEq, Repr

/-- Where a testing thread (a thread context) is. `atLoop`: the thread holds the lock and is about
to look for the next test (`src/archon/check/noinst/thread_context_impl.cpp:57` or line 86).
`body e done`: the thread is inside `run(exec, lock)` having released the lock (line 113); `done` is
set when the test has thrown. `deferred`: the thread has left the nonconcurrent tests to the main
thread (line 71). `ended`: the thread has been finalized. -/
inductive Phase where
  | idle
  | atLoop
  | body (e : Exec) (done : Bool)
  | deferred
  | ended
deriving DecidableEq, Repr

/-- Number of checks, number of failed checks, number of failed test executions. -/
abbrev Counters := Nat × Nat × Nat

/-- `impl::ThreadContextImpl` (`src/archon/check/noinst/thread_context_impl.hpp:41-86`). -/
structure Thr where
  phase : Phase := .idle
  counters : Counters := (0, 0, 0)
  errorsSeen : Bool := false
  cacheKey : String := ""
  cacheValue : String := ""
deriving DecidableEq, Repr

/-- Where the main thread is in `TestRunner::run()` (`src/archon/check/test_runner.cpp:350-405`).
`nonconcur k rest`: the main thread is executing `nonconcur_run()` on thread context `k` and `rest`
are the executions that have not yet been started. -/
inductive Stage where
  | concur
  | nonconcur (k : Nat) (rest : List Exec)
  | summarize
  | done (result : Bool)
  | aborted
deriving DecidableEq, Repr

/-- `impl::RootContextImpl` (`src/archon/check/noinst/root_context_impl.hpp:62-68`), with the
thread contexts and the position of the main thread. -/
structure St where
  stage : Stage := .concur
  lock : Option Nat := none
  next : Nat := 0
  counters : Counters := (0, 0, 0)
  numEnded : Nat := 0
  last : Option Nat := none
  thr : Nat → Thr := fun _ => {}

/-- Replace a thread context. -/
def St.set (s : St) (i : Nat) (t : Thr) : St :=
  { s with thr := fun j => if j = i then t else s.thr j }

/-- What the main thread and the testing threads may do next. -/
inductive Act where
  /-- Thread `i` begins `run()` and acquires the lock. -/
  | start (i : Nat)
  /-- Thread `i`, holding the lock, looks for the next test. -/
  | next (i : Nat)
  /-- The test running on thread `i` performs a successful check. -/
  | checkOk (i : Nat)
  /-- The test running on thread `i` performs a failing check at the specified location. -/
  | checkFail (i : Nat) (file : String) (line : Int)
  /-- The test running on thread `i` throws. -/
  | throw (i : Nat)
  /-- The test running on thread `i` has returned or thrown; the thread acquires the lock. -/
  | finish (i : Nat)
  /-- The main thread finds that all the testing threads have terminated. -/
  | join
  /-- The main thread reports the summary and returns. -/
  | summarize
deriving DecidableEq, Repr

/-- The repetition-dependent part of the random seed
(`src/archon/check/noinst/thread_context_impl.cpp:95-104`,
`src/archon/core/integer.hpp:1684-1694`). -/
def seedExtra (env : Env) (e : Exec) : Nat × Nat :=
  let no := if env.seedOverride ≠ 0 then env.seedOverride else e.rep
  (no % 2 ^ 32, (no / 2 ^ 32) % 2 ^ 32)

/-- The first part of `run(exec, lock)` (`src/archon/check/noinst/thread_context_impl.cpp:95-115`):
report the beginning of the test execution and release the lock. -/
def beginTest (env : Env) (s : St) (i : Nat) (e : Exec) : St × List Ev :=
  let t := s.thr i
  ({ s.set i { t with phase := .body e false, errorsSeen := false } with lock := none },
    [.testBegin i e (seedExtra env e)])

/-- `finalize()` (`src/archon/check/noinst/thread_context_impl.cpp:142-149`), followed by the
release of the lock. -/
def finalize (s : St) (i : Nat) : St × List Ev :=
  let t := s.thr i
  ({ s.set i { t with phase := .ended } with
      counters := s.counters + t.counters, lock := none },
    [.threadEnd i])

/-- The location of a test (`src/archon/check/noinst/thread_context_impl.cpp:107-111`). -/
def detailsOf (env : Env) (e : Exec) : Details :=
  match env.tests[e.test]? with
  | some entry => entry.details
  | none => ⟨"", "", 0⟩

/-- The mapped path of the location of a failed check, and the resulting cache
(`src/archon/check/noinst/thread_context_impl.cpp:180-192`). -/
def mapCheckPath (env : Env) (t : Thr) (e : Exec) (file : String) : String × Thr :=
  if file = (detailsOf env e).file then (env.mapPath (detailsOf env e).file, t)
  else if file = t.cacheKey then (t.cacheValue, t)
  else (env.mapPath file, { t with cacheKey := file, cacheValue := env.mapPath file })

/-- `nonconcur_run()` up to and including the acquisition of the lock
(`src/archon/check/noinst/thread_context_impl.cpp:80-84`), as invoked by the main thread
(`src/archon/check/test_runner.cpp:357` and `:390`). -/
def nonconcurRun (env : Env) (s : St) (k : Nat) : St :=
  let t := s.thr k
  { s.set k { t with phase := .atLoop, counters := (0, 0, 0) } with
    lock := some k, stage := .nonconcur k env.nonconcur }

/-- Whether the function executed by a testing thread has returned. -/
def Phase.returned : Phase → Bool
  | .deferred => true
  | .ended => true
  | _ => false

/-- The summary (`src/archon/check/test_runner.cpp:394-402`). -/
def summaryOf (env : Env) (s : St) : Summary where
  numDisabled := env.numDisabled
  numExcluded := env.numEnabled - env.tests.length
  numSelected := env.tests.length
  numExecutions := env.concur.length + env.nonconcur.length
  numFailedExecutions := s.counters.2.2
  numChecks := s.counters.1
  numFailedChecks := s.counters.2.1

/-- The part of a failure report that follows the invocation of the reporter
(`src/archon/check/noinst/thread_context_impl.cpp:165-166` and `:199-200`). -/
def abortIf (env : Env) (s : St) : St :=
  if env.abortOnFailure then { s with stage := .aborted } else s

/-- Whether tests may be running. -/
def Stage.running : Stage → Bool
  | .concur => true
  | .nonconcur _ _ => true
  | _ => false

/-- Beginning of `ThreadContextImpl::run()`
(`src/archon/check/noinst/thread_context_impl.cpp:50-53`). -/
def stepStart (env : Env) (s : St) (i : Nat) : Option (St × List Ev) :=
  if s.stage = .concur ∧ i < env.numThreads ∧ (s.thr i).phase = .idle ∧ s.lock = none then
    some ({ s.set i { s.thr i with phase := .atLoop, counters := (0, 0, 0) } with lock := some i },
      [.threadBegin i])
  else none

/-- The loop and the end of `ThreadContextImpl::run()`
(`src/archon/check/noinst/thread_context_impl.cpp:57-76`). -/
def nextConcur (env : Env) (s : St) (i : Nat) : St × List Ev :=
  match env.concur[s.next]? with
  | some e => beginTest env { s with next := s.next + 1 } i e
  | none =>
    if env.nonconcur ≠ [] ∧ env.numThreads - s.numEnded = 1 then
      ({ s.set i { s.thr i with phase := .deferred } with last := some i, lock := none }, [])
    else
      finalize { s with numEnded := s.numEnded + 1 } i

/-- The loop and the end of `ThreadContextImpl::nonconcur_run()`
(`src/archon/check/noinst/thread_context_impl.cpp:86-89`). -/
def nextNonconcur (env : Env) (s : St) (k : Nat) (rest : List Exec) : St × List Ev :=
  match rest with
  | e :: rest => beginTest env { s with stage := .nonconcur k rest } k e
  | [] => finalize { s with stage := .summarize } k

/-- A thread that holds the lock looks for the next test. -/
def stepNext (env : Env) (s : St) (i : Nat) : Option (St × List Ev) :=
  if (s.thr i).phase = .atLoop then
    match s.stage with
    | .concur => some (nextConcur env s i)
    | .nonconcur k rest => if i = k then some (nextNonconcur env s k rest) else none
    | _ => none
  else none

/-- `TestContext::check_succeeded()` (`src/archon/check/test_context.cpp:79-82`). -/
def stepCheckOk (s : St) (i : Nat) : Option (St × List Ev) :=
  match (s.thr i).phase with
  | .body e false =>
    if s.stage.running then
      some (s.set i { s.thr i with counters := (s.thr i).counters + (1, 0, 0) }, [.checkOk i e])
    else none
  | _ => none

/-- `ThreadContextImpl::check_failed()`
(`src/archon/check/noinst/thread_context_impl.cpp:171-202`). -/
def stepCheckFail (env : Env) (s : St) (i : Nat) (file : String) (line : Int) :
    Option (St × List Ev) :=
  match (s.thr i).phase with
  | .body e false =>
    if s.stage.running ∧ s.lock = none then
      let t := { s.thr i with counters := (s.thr i).counters + (1, 1, 0), errorsSeen := true }
      let m := mapCheckPath env t e file
      some (abortIf env (s.set i m.2), [.checkFail i e file line m.1])
    else none
  | _ => none

/-- The handling of an exception thrown by a test, and `ThreadContextImpl::test_failed()`
(`src/archon/check/noinst/thread_context_impl.cpp:120-130` and `:152-168`). -/
def stepThrow (env : Env) (s : St) (i : Nat) : Option (St × List Ev) :=
  match (s.thr i).phase with
  | .body e false =>
    if s.stage.running ∧ s.lock = none then
      let d := detailsOf env e
      some (abortIf env (s.set i { s.thr i with phase := .body e true, errorsSeen := true }),
        [.testFail i e d.file d.line (env.mapPath d.file)])
    else none
  | _ => none

/-- The end of `ThreadContextImpl::run(exec, lock)`
(`src/archon/check/noinst/thread_context_impl.cpp:131-138`). -/
def stepFinish (s : St) (i : Nat) : Option (St × List Ev) :=
  match (s.thr i).phase with
  | .body e _ =>
    if s.stage.running ∧ s.lock = none then
      let t := s.thr i
      let c := if t.errorsSeen then t.counters + (0, 0, 1) else t.counters
      some ({ s.set i { t with phase := .atLoop, counters := c } with lock := some i },
        [.testEnd i e])
    else none
  | _ => none

/-- The main thread, when the testing threads have terminated
(`src/archon/check/test_runner.cpp:353-391`). With one thread, `run()` and `nonconcur_run()` are
executed by the main thread itself. -/
def stepJoin (env : Env) (s : St) : Option (St × List Ev) :=
  if s.stage = .concur ∧ (List.range env.numThreads).all (fun i => (s.thr i).phase.returned) then
    if env.numThreads = 1 then some (nonconcurRun env s 0, [])
    else
      match s.last with
      | some k => some (nonconcurRun env s k, [])
      | none => some ({ s with stage := .summarize }, [])
  else none

/-- The summary, and the return value (`src/archon/check/test_runner.cpp:393-405`). -/
def stepSummarize (env : Env) (s : St) : Option (St × List Ev) :=
  if s.stage = .summarize then
    some ({ s with stage := .done (s.counters.2.2 == 0) }, [.rootEnd (summaryOf env s)])
  else none

/-- The effect of an action, and what happens during the action. `none` means that the action cannot
take place in this state. The program is gone when it has been aborted, and `run()` has returned when
the stage is `done`; no action can take place then. -/
def step (env : Env) (s : St) : Act → Option (St × List Ev)
  | .start i => stepStart env s i
  | .next i => stepNext env s i
  | .checkOk i => stepCheckOk s i
  | .checkFail i file line => stepCheckFail env s i file line
  | .throw i => stepThrow env s i
  | .finish i => stepFinish s i
  | .join => stepJoin env s
  | .summarize => stepSummarize env s

/-- The executions of the part of `TestRunner::run()` that begins with the invocation of
`Reporter::root_begin()` (`src/archon/check/test_runner.cpp:350-405`): what has happened so far, and
the state. -/
inductive Reach (env : Env) : List Ev → St → Prop where
  | init : Reach env [.rootBegin] {}
  | step {tr : List Ev} {s s' : St} {a : Act} {evs : List Ev} :
      Reach env tr s → step env s a = some (s', evs) → Reach env (tr ++ evs) s'

/-- Execute a sequence of actions (used for examples). -/
def exec (env : Env) : List Ev × St → List Act → Option (List Ev × St)
  | x, [] => some x
  | (tr, s), a :: rest =>
    match step env s a with
    | none => none
    | some (s', evs) => exec env (tr ++ evs, s') rest

/-! ## Directories -/

/-- State of the loop of `ensure_subdir()`: the path, and the directories that were created. -/
abbrev SubdirState := List String × List (List String)

/-- The loop of `ensure_subdir()` (`src/archon/check/test_runner.cpp:77-88`). A relative path is the
list of its segments, and a created directory is given as a path relative to the base directory. -/
def ensureLoop : List String → SubdirState → Bool × SubdirState
  | [], s => (true, s)
  | segment :: rest, (path, created) =>
    if segment ≠ "." then
      if segment ≠ ".." then
        ensureLoop rest (path ++ [segment], created ++ [path ++ [segment]])
      else if path = [] then (false, (path, created))
      else ensureLoop rest (path.dropLast, created)
    else ensureLoop rest (path, created)

/-- `ensure_subdir()` (`src/archon/check/test_runner.cpp:64-90`). `rooted` tells whether the path has
a root name or a root directory. The result is the return value and the directories that were
created. -/
def ensureSubdir (rooted : Bool) (segments : List String) : Bool × List (List String) :=
  if rooted then (false, [])
  else
    let r := ensureLoop segments ([], [])
    (r.1, r.2.2)

end Verif.TestRunner
