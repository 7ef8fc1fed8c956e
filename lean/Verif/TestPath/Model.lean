import Verif.AsInt.Model
/-!
Model of test files: /repo/src/archon/check/test_path.hpp, and `TestContext::make_test_path()` and `TestContext::keep_test_files()` in
/repo/src/archon/check/test_context.cpp.

A path is the list of its components. `I` is the number of value bits of `int`. Exceptions are not modelled, that is, operations of the file
system succeed.
-/
namespace Verif.TestPath
open Verif.Integer

abbrev Path := List (List Char)

/-- The string in `TestContext::make_test_path()`: test_context.cpp:60-63. `M` and `mem`: see `AsInt.format`. Formatting according to the
template (`%s.%s%s`) is taken to be concatenation. -/
def formatName (I M : Nat) (mem : List Char) (name : List Char) (repetitionNo : Int) (suffix : List Char) : Option (List Char) :=
  (AsInt.format I (intTy I) M 10 1 mem repetitionNo).map fun n => name ++ '.' :: (n ++ suffix)

/-- The components of a relative path in the generic format of `std::filesystem::path`: `core::make_fs_path_generic()`. `acc` is the
reverse of the component that is being read. -/
def components : (acc text : List Char) → Path
  | acc, [] => if acc = [] then [] else [acc.reverse]
  | acc, c :: rest => if c = '/' then (if acc = [] then [] else [acc.reverse]) ++ components [] rest else components (c :: acc) rest

/-- `TestContext::make_test_path()`: test_context.cpp:58-69. `dir` is the directory for test files. -/
def makeTestPath (I M : Nat) (mem : List Char) (dir : Path) (name : List Char) (repetitionNo : Int) (suffix : List Char) : Option Path :=
  (formatName I M mem name repetitionNo suffix).map fun text => dir ++ components [] text

/-- The suffix that is passed to the guard by `ARCHON_TEST_FILE()`, `ARCHON_TEST_FILE_EX()`, and `ARCHON_TEST_DIR()`: test_path.hpp:39-65,
267-268. `extension` is empty, or it is a dot followed by the specified extension. -/
def guardSuffix (varName extension : List Char) : List Char := '.' :: (varName ++ extension)

/-- The file system: whether there is something at a path. -/
abbrev Files := Path → Bool

/-- `std::filesystem::remove_all()`. -/
def removeAll (fs : Files) (p : Path) : Files := fun q => fs q && !p.isPrefixOf q

/-- `std::filesystem::create_directory()`. -/
def createDirectory (fs : Files) (p : Path) : Files := fun q => fs q || q == p

/-- `TestPathGuard`: test_path.hpp:229-231. `active` is whether there is a test context. -/
structure Guard where
  active : Bool
  path : Path
deriving DecidableEq, Repr

/-- `TestPath::prepare()` and `TestDir::prepare()`: test_path.hpp:287-290, 304-308. -/
def prepare (isDir : Bool) (fs : Files) (p : Path) : Files := if isDir then createDirectory fs p else fs

/-- `TestPath::cleanup()`: test_path.hpp:293-297. -/
def cleanup (fs : Files) (p : Path) : Files := removeAll fs p

/-- `TestPathGuard::destroy()`: test_path.hpp:374-379. -/
def destroy (keep : Bool) (fs : Files) (g : Guard) : Files := if g.active && !keep then cleanup fs g.path else fs

/-- What can happen: guards are created with the specified path, moved, and destroyed, and something is created at a path by a test. `left` is
what is left behind in a path that is moved from, and it can be anything. -/
inductive Op where
  | construct (v : Nat) (isDir : Bool) (path : Path)
  | moveConstruct (v w : Nat) (left : Path)
  | moveAssign (v w : Nat) (left : Path)
  | destroy (v : Nat)
  | write (q : Path)

/-- The file system, and the guards that exist. -/
structure State where
  fs : Files
  guards : Nat → Option Guard

/-- Change of a variable. -/
def set (guards : Nat → Option Guard) (v : Nat) (g : Option Guard) : Nat → Option Guard := fun w => if w = v then g else guards w

/-- One operation: test_path.hpp:315-323 (construction), 326-330 (destruction), 347-353 (move construction), 356-364 (move assignment). An
operation that makes no sense because a variable exists, or does not exist, has no effect. -/
def step (keep : Bool) (s : State) : Op → State
  | .construct v isDir p =>
    match s.guards v with
    | some _ => s
    | none => ⟨prepare isDir (cleanup s.fs p) p, set s.guards v (some ⟨true, p⟩)⟩
  | .moveConstruct v w left =>
    match s.guards v, s.guards w with
    | none, some g => { s with guards := set (set s.guards v (some g)) w (some ⟨false, left⟩) }
    | _, _ => s
  | .moveAssign v w left =>
    match s.guards v, s.guards w with
    | some g, some h =>
      let fs := destroy keep s.fs g
      if v = w then ⟨fs, set s.guards v (some ⟨false, left⟩)⟩
      else ⟨fs, set (set s.guards v (some h)) w (some ⟨false, left⟩)⟩
    | _, _ => s
  | .destroy v =>
    match s.guards v with
    | none => s
    | some g => ⟨destroy keep s.fs g, set s.guards v none⟩
  | .write q => { s with fs := fun r => s.fs r || r == q }

/-- A sequence of operations. -/
def run (keep : Bool) : State → List Op → State
  | s, [] => s
  | s, op :: ops => run keep (step keep s op) ops

end Verif.TestPath
