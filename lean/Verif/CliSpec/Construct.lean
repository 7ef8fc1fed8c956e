import Verif.CliSpec.Options
import Verif.CliSpec.Recorder
import Verif.CliPattern.Args
import Verif.CliPattern.Matcher
/-!
Model of the addition of patterns in the constructor of `BasicProcessor` in /repo/src/archon/cli/processor.hpp, and of `Spec::add_pattern()` in
/repo/src/archon/cli/impl/spec.hpp.

The outcome `none` is a violated assertion, an index out of range, or that a limit on recursion or on the number of steps was too low. The
description of a pattern is left out, as is the text of the pattern after it has been parsed. Widening of strings (processor.hpp:556-599) is
left out.
-/
namespace Verif.CliSpec

open Verif.CliPattern

/-- Actions of patterns: No action (processor.hpp:333-357), a function with parameters of certain types
(/repo/src/archon/cli/impl/pattern_action.hpp:138-183), or delegation (pattern_action.hpp:190-211). -/
inductive PatternAction where
  | null
  | func (ts : Ty)
  | deleg
deriving DecidableEq, Repr

/-- `PatternAction::is_deleg`: pattern_action.hpp:58. -/
def PatternAction.isDeleg : PatternAction → Bool
  | .deleg => true
  | _ => false

/-- `PatternAction::check()`: processor.hpp:347-350, pattern_action.hpp:154-157, and pattern_action.hpp:106-110. -/
def PatternAction.check (t : Tables) (elemSeqIndex : Nat) : PatternAction → Option Bool
  | .null => some true
  | .func ts => checkFunc t ts elemSeqIndex
  | .deleg => none

/-- A declaration of a pattern, `BasicSpec::Pattern`: /repo/src/archon/cli/spec.hpp:496-501. -/
structure PatternDecl where
  pattern : Str
  attr : BitVec 32
  action : PatternAction
deriving DecidableEq, Repr

/-- `Spec::Pattern`: spec.hpp:135-141. The only attribute is `completing`: /repo/src/archon/cli/attributes.hpp:55. -/
structure PatternInfo where
  completing : Bool
  elemSeqIndex : Nat
  action : PatternAction
deriving DecidableEq, Repr

/-- What is reported by `add_pattern()`: spec.hpp:277, and 284-285. -/
inductive PatternError where
  | badAttr | funcMismatch
deriving DecidableEq, Repr

/-- `Spec::add_pattern()`: spec.hpp:262-290. -/
def addPattern (patterns : List PatternInfo) (attr : BitVec 32) (elemSeqIndex : Nat) (action : PatternAction) (t : Tables) :
    Option (Except PatternError (List PatternInfo)) := do
  if attr &&& ~~~ 1 ≠ 0 then some (.error .badAttr)
  else
    let good ← (if !action.isDeleg then action.check t elemSeqIndex else some true)
    if !good then some (.error .funcMismatch)
    else some (.ok (patterns ++ [⟨decide (attr &&& 1 ≠ 0), elemSeqIndex, action⟩]))

/-- The `Spec` object, and the pattern structure: `m_impl_spec`, and `m_pattern_structure` in processor.hpp:298-299. -/
structure SpecState where
  reg : Registry
  t : Tables
  patterns : List PatternInfo

/-- What goes wrong in a specification. The number is the index of the pattern. -/
inductive SpecError where
  | options (err : DeclError)
  | parse (index : Nat) (err : ParseError)
  | record (index : Nat) (err : RecError)
  | pattern (index : Nat) (err : PatternError)
deriving DecidableEq, Repr

/-- `SpecParser::parse_pattern()` followed by `Spec::add_pattern()`: processor.hpp:643-645. The former is also spec_parser.hpp:232-250. -/
def declarePattern (env : Env) (fuel : Nat) (s : SpecState) (index : Nat) (d : PatternDecl) : Option (Except SpecError SpecState) :=
  match parsePattern env fuel d.pattern d.action.isDeleg with
  | .error .unfinished => none
  | .error (.error err) => some (.error (.parse index err))
  | .ok (nodeIndex, nodes) => do
    match ← record fuel nodes nodeIndex index s.reg s.t with
    | .error err => some (.error (.record index err))
    | .ok (reg, t, elemSeqIndex) => do
      match ← addPattern s.patterns d.attr elemSeqIndex d.action t with
      | .error err => some (.error (.pattern index err))
      | .ok patterns => some (.ok ⟨reg, t, patterns⟩)

/-- The loop over patterns: processor.hpp:631-646. -/
def declarePatterns (env : Env) (fuel : Nat) : SpecState → Nat → List PatternDecl → Option (Except SpecError SpecState)
  | s, _, [] => some (.ok s)
  | s, index, d :: ds => do
    if index = s.patterns.length then
      match ← declarePattern env fuel s index d with
      | .error err => some (.error err)
      | .ok s => declarePatterns env fuel s (index + 1) ds
    else none

/-- The default pattern: processor.hpp:650-661. -/
def defaultPattern : PatternDecl := ⟨[], 0, .null⟩

/-- The constructor of `BasicProcessor`: processor.hpp:601-664. -/
def construct (env : Env) (fuel : Nat) (options : List OptionDecl) (patterns : List PatternDecl) : Option (Except SpecError SpecState) := do
  match ← declareOptions env fuel emptyRegistry 0 options with
  | .error err => some (.error (.options err))
  | .ok reg => do
    match ← declarePatterns env fuel ⟨reg, ⟨[], [], [], []⟩, []⟩ 0 patterns with
    | .error err => some (.error err)
    | .ok s => if s.patterns.length = 0 then declarePattern env fuel s 0 defaultPattern else some (.ok s)

end Verif.CliSpec
