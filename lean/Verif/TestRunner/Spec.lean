import Verif.TestRunner.Model

/-!
# Specification of test runs

Everything is stated in terms of what happens during a run: the list of invocations of the functions
of the reporter, and of successful checks.
-/

namespace Verif.TestRunner

/-- The test executions that were begun, each with the index of the testing thread. -/
def begins (tr : List Ev) : List (Nat × Exec) :=
  tr.filterMap fun
    | .testBegin i e _ => some (i, e)
    | _ => none

/-- The test executions that were ended. -/
def ends (tr : List Ev) : List (Nat × Exec) :=
  tr.filterMap fun
    | .testEnd i e => some (i, e)
    | _ => none

/-- The test executions that are in progress. -/
def running (tr : List Ev) : List (Nat × Exec) :=
  (begins tr).filter fun p => decide (p ∉ ends tr)

/-- The testing thread on which something happened. -/
def Ev.thread? : Ev → Option Nat
  | .rootBegin => none
  | .threadBegin i => some i
  | .testBegin i _ _ => some i
  | .checkOk i _ => some i
  | .checkFail i _ _ _ _ => some i
  | .testFail i _ _ _ _ => some i
  | .testEnd i _ => some i
  | .threadEnd i => some i
  | .rootEnd _ => none

/-- The test execution, and its testing thread, in which something happened. -/
def Ev.test? : Ev → Option (Nat × Exec)
  | .testBegin i e _ => some (i, e)
  | .checkOk i e => some (i, e)
  | .checkFail i e _ _ _ => some (i, e)
  | .testFail i e _ _ _ => some (i, e)
  | .testEnd i e => some (i, e)
  | _ => none

/-- A check was performed. -/
def Ev.isCheck : Ev → Bool
  | .checkOk _ _ => true
  | .checkFail _ _ _ _ _ => true
  | _ => false

/-- A check failed. -/
def Ev.isFailedCheck : Ev → Bool
  | .checkFail _ _ _ _ _ => true
  | _ => false

/-- Something failed. -/
def Ev.isFailure : Ev → Bool
  | .checkFail _ _ _ _ _ => true
  | .testFail _ _ _ _ _ => true
  | _ => false

/-- Whether a failure was reported for the specified test execution. -/
def failed (tr : List Ev) (e : Exec) : Bool :=
  tr.any fun ev => ev.isFailure && decide ((ev.test?.map Prod.snd) = some e)

/-- All executions of the specified number of tests with the specified number of repetitions, in the
order stated in the documentation of `TestConfig::num_repetitions`: first all tests with repetition
number 1, then all tests with repetition number 2, and so on. -/
def allExecs (numTests numReps : Nat) : List Exec :=
  (List.range numReps).flatMap fun r => (List.range numTests).map fun j => ⟨j, r + 1⟩

/-- The names of the tests are distinct. -/
def NamesDistinct (list : List Entry) : Prop :=
  (list.map fun entry => entry.details.name).Nodup

/-- The tests to be executed. -/
def selected (filter : Details → Bool) (list : List Entry) : List Entry :=
  list.filter fun entry => entry.enabled && filter entry.details

/-- A shuffle rearranges. -/
def ShuffleOk (config : Config) : Prop :=
  ∀ f, config.shuffle = some f → (∀ l, (f.1 l).Perm l) ∧ (∀ l, (f.2 l).Perm l)

/-- What a test order must satisfy (strict weak order). -/
structure StrictWeak (less : Details → Details → Bool) : Prop where
  asymm : ∀ a b, less a b = true → less b a = false
  negTrans : ∀ a b c, less a b = false → less b c = false → less a c = false

/-- The relative path, with `.` and `..` resolved, or nothing if the path leads outside the
directory that it is relative to. -/
def resolve : List String → Option (List String)
  | segments => go segments []
where
  go : List String → List String → Option (List String)
    | [], acc => some acc.reverse
    | "." :: rest, acc => go rest acc
    | ".." :: _, [] => none
    | ".." :: rest, _ :: acc => go rest acc
    | segment :: rest, acc => go rest (segment :: acc)

end Verif.TestRunner
