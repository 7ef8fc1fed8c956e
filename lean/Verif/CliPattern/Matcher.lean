import Verif.CliPattern.Builder
/-!
Model of /repo/src/archon/cli/impl/pattern_matcher.hpp.

A frozen position set is the list of its elements instead of a range in `m_frozen_position_set_elems`. A state is looked up by the
elements of its set, which is what `FrozenPositionSetCompare` (lines 161-177) amounts to. The transitions of a state are listed in the
order in which they are added. Instead of a message, an error has the numbers that are formatted into the message.
-/
namespace Verif.CliPattern

/-- Outcomes of the construction of a pattern matcher other than success. -/
inductive Stop where
  /-- `SpecError::cross_pattern_ambiguity`: "Ambiguity between %s and %s pattern" -/
  | cross (a b : Nat)
  /-- `SpecError::positional_ambiguity`: "Positional ambiguity in %s pattern (between %s and %s symbol)" -/
  | positional (pattern a b : Nat)
  /-- `SpecError::prefix_deleg_pattern`: "Delegating pattern (%s pattern) has match that is a proper prefix of another match …" -/
  | prefixDeleg (pattern : Nat)
  /-- A violated assertion, or an index out of range -/
  | ub
  /-- The bound on the number of steps was too small -/
  | unfinished
deriving DecidableEq, Repr

abbrev Res := Except Stop

/-- Presence of a value that the code takes for granted. -/
def need {α : Type} : Option α → Res α
  | some a => .ok a
  | none => .error .ub

/-- `PatternMatcherConfig`: pattern_matcher.hpp:53-56. -/
structure Config where
  allowCross : Bool
  allowPositional : Bool

/-- The parts of a pattern in a specification that matter here: /repo/src/archon/cli/impl/spec.hpp:135-141. -/
structure PatternSpec where
  elemSeqIndex : Nat
  isDeleg : Bool

/-- `PatternMatcher::State`: pattern_matcher.hpp:102-106. -/
structure DState where
  positions : List Nat
  finalpos : Option Nat
  transitions : List (PatternSymbol × Nat)
deriving DecidableEq, Repr

/-- The first part of the constructor: pattern_matcher.hpp:145-153. -/
def buildNfa (fuel : Nat) (t : Tables) : List PatternSpec → Nat → Nfa → Res Nfa
  | [], _, nfa => .ok nfa
  | pattern :: rest, i, nfa => do
    let nfa ← need (addPattern fuel t pattern.elemSeqIndex i nfa)
    buildNfa fuel t rest (i + 1) nfa

/-- The loop in `ensure_state`: pattern_matcher.hpp:196-217. -/
def findFinal (config : Config) (nfa : Nfa) : List Nat → Option Nat → Res (Option Nat)
  | [], finalpos => .ok finalpos
  | pos :: rest, finalpos => do
    let position ← need nfa.positions[pos]?
    if !position.followpos.isEmpty then findFinal config nfa rest finalpos
    else match finalpos with
      | none => findFinal config nfa rest (some pos)
      | some prior => do
        let priorPosition ← need nfa.positions[prior]?
        if priorPosition.patternIndex < position.patternIndex then
          if config.allowCross then findFinal config nfa rest finalpos
          else .error (.cross (1 + priorPosition.patternIndex) (1 + position.patternIndex))
        else .error .ub

/-- `ensure_state`: pattern_matcher.hpp:181-222. -/
def ensureState (config : Config) (nfa : Nfa) (positions : List Nat) (states : List DState) : Res (List DState × Nat) :=
  match states.findIdx? (fun state => state.positions = positions) with
  | some i => .ok (states, i)
  | none => do
    let finalpos ← findFinal config nfa positions none
    .ok (states ++ [⟨positions, finalpos, []⟩], states.length)

/-- The search for the origin of a conflicting transition: pattern_matcher.hpp:250-262. -/
def reportConflict (nfa : Nfa) (pos : Nat) (position : Position) (pos2 : Nat) : List Nat → Res (List Nat)
  | [] => .error .ub
  | pos3 :: rest => do
    let position2 ← need nfa.positions[pos3]?
    if position2.symbol = position.symbol ∧ pos2 ∈ position2.followpos then
      .error (.positional (1 + position.patternIndex) (1 + pos3) (1 + pos))
    else reportConflict nfa pos position pos2 rest

/-- The loop over `position.followpos`: pattern_matcher.hpp:241-264. Here, `earlier` is the positions from `begin` to `i`. -/
def addFollow (config : Config) (nfa : Nfa) (earlier : List Nat) (pos : Nat) (position : Position) :
    List Nat → List Nat → Res (List Nat)
  | [], set => .ok set
  | pos2 :: rest, set =>
    let p := setInsert pos2 set
    if p.2 || config.allowPositional then addFollow config nfa earlier pos position rest p.1
    else reportConflict nfa pos position pos2 earlier

/-- `target_sets[symbol]` followed by a modification of the set: pattern_matcher.hpp:240-264. The entries are in the order of the
symbols. -/
def modifyTarget (symbol : PatternSymbol) (f : List Nat → Res (List Nat)) :
    List (PatternSymbol × List Nat) → Res (List (PatternSymbol × List Nat))
  | [] => do
    let set ← f []
    .ok [(symbol, set)]
  | (symbol2, set) :: rest =>
    if symbol.lt symbol2 then do
      let set2 ← f []
      .ok ((symbol, set2) :: (symbol2, set) :: rest)
    else if symbol2.lt symbol then do
      let rest ← modifyTarget symbol f rest
      .ok ((symbol2, set) :: rest)
    else do
      let set ← f set
      .ok ((symbol2, set) :: rest)

/-- The loop over the positions of a state: pattern_matcher.hpp:235-266. -/
def findTargets (config : Config) (nfa : Nfa) : List Nat → List Nat → List (PatternSymbol × List Nat) →
    Res (List (PatternSymbol × List Nat))
  | _, [], targets => .ok targets
  | earlier, pos :: rest, targets => do
    let position ← need nfa.positions[pos]?
    if !position.followpos.isEmpty then do
      let targets ← modifyTarget position.symbol (addFollow config nfa earlier pos position position.followpos) targets
      findTargets config nfa (earlier ++ [pos]) rest targets
    else findTargets config nfa (earlier ++ [pos]) rest targets

/-- The check for delegating patterns: pattern_matcher.hpp:277-296. -/
def checkDeleg (patterns : List PatternSpec) (nfa : Nfa) (state : DState) : Res Unit :=
  match state.transitions, state.finalpos with
  | [], some pos => do
    let position ← need nfa.positions[pos]?
    let pattern ← need patterns[position.patternIndex]?
    if pattern.isDeleg then .error (.prefixDeleg (1 + position.patternIndex)) else .ok ()
  | _, _ => .ok ()

/-- The loop over `target_sets`: pattern_matcher.hpp:268-298. -/
def addTransitions (config : Config) (patterns : List PatternSpec) (nfa : Nfa) (k : Nat) :
    List (PatternSymbol × List Nat) → List DState → Res (List DState)
  | [], states => .ok states
  | (symbol, set) :: rest, states =>
    if set.isEmpty then .error .ub else do
      let (states, target) ← ensureState config nfa set states
      let state ← need states[k]?
      checkDeleg patterns nfa state
      addTransitions config patterns nfa k rest (states.set k { state with transitions := state.transitions ++ [(symbol, target)] })

/-- The body of the main loop: pattern_matcher.hpp:226-299. -/
def finalizeState (config : Config) (patterns : List PatternSpec) (nfa : Nfa) (k : Nat) (states : List DState) : Res (List DState) := do
  let state ← need states[k]?
  if !state.transitions.isEmpty then .error .ub else do
    let targets ← findTargets config nfa [] state.positions []
    addTransitions config patterns nfa k targets states

/-- The main loop: pattern_matcher.hpp:225-300. The first argument bounds the number of iterations. -/
def finalizeStates (config : Config) (patterns : List PatternSpec) (nfa : Nfa) : Nat → Nat → List DState → Res (List DState)
  | 0, _, _ => .error .unfinished
  | fuel + 1, k, states => do
    let states ← finalizeState config patterns nfa k states
    if k + 1 < states.length then finalizeStates config patterns nfa fuel (k + 1) states else .ok states

/-- `PatternMatcher::HistoryEntry`: pattern_matcher.hpp:108-112. -/
structure HistoryEntry where
  priorStateIndex : Nat
  symbol : PatternSymbol
  argIndex : Nat

/-- `PatternMatcher`: pattern_matcher.hpp:114-121. -/
structure Matcher where
  patterns : List PatternSpec
  numArgs : Nat
  nfa : Nfa
  states : List DState
  stateIndex : Nat
  history : List HistoryEntry

/-- The constructor: pattern_matcher.hpp:135-301. The first argument bounds the number of steps of the loops. -/
def makeMatcher (fuel : Nat) (t : Tables) (patterns : List PatternSpec) (numArgs : Nat) (config : Config) : Res Matcher :=
  if patterns.isEmpty then .error .ub else do
    let nfa ← buildNfa fuel t patterns 0 ⟨[], []⟩
    let (states, _) ← ensureState config nfa nfa.starts []
    let states ← finalizeStates config patterns nfa fuel 0 states
    .ok ⟨patterns, numArgs, nfa, states, 0, []⟩

/-- `PatternMatcher::consume()`: pattern_matcher.hpp:416-430. The outer `none` is a violated assertion. The inner `none` is the result
`false`, in which case nothing was changed. -/
def Matcher.consume (m : Matcher) (symbol : PatternSymbol) (argIndex : Nat) : Option (Option Matcher) :=
  if argIndex < m.numArgs then do
    let state ← m.states[m.stateIndex]?
    match state.transitions.find? (fun e => e.1 = symbol) with
    | some e => some (some { m with stateIndex := e.2, history := m.history ++ [⟨m.stateIndex, symbol, argIndex⟩] })
    | none => some none
  else none

/-- The loop in `PatternMatcher::can_delegate()`: pattern_matcher.hpp:332-338. -/
def anyDeleg (patterns : List PatternSpec) (nfa : Nfa) : List Nat → Option Bool
  | [] => some false
  | pos :: rest => do
    let position ← nfa.positions[pos]?
    let pattern ← patterns[position.patternIndex]?
    if pattern.isDeleg then some true else anyDeleg patterns nfa rest

/-- `PatternMatcher::can_delegate()`: pattern_matcher.hpp:326-340. -/
def Matcher.canDelegate (m : Matcher) : Option Bool := do
  let state ← m.states[m.stateIndex]?
  anyDeleg m.patterns m.nfa state.positions

/-- `PatternMatcher::can_consume()`: pattern_matcher.hpp:344-349. -/
def Matcher.canConsume (m : Matcher) : Option Bool := do
  let state ← m.states[m.stateIndex]?
  some !state.transitions.isEmpty

/-- `PatternMatcher::is_match()`: pattern_matcher.hpp:353-362. The inner `none` is the result `false`. -/
def Matcher.isMatch (m : Matcher) : Option (Option Nat) := do
  let state ← m.states[m.stateIndex]?
  match state.finalpos with
  | none => some none
  | some pos => do
    let position ← m.nfa.positions[pos]?
    some (some position.patternIndex)

/-- The search for the prior position in `PatternMatcher::backtrack()`: pattern_matcher.hpp:389-402. -/
def priorPos (nfa : Nfa) (symbol : PatternSymbol) (pos : Nat) : List Nat → Option Nat
  | [] => none
  | pos2 :: rest => do
    let position ← nfa.positions[pos2]?
    if position.symbol ≠ symbol then priorPos nfa symbol pos rest
    else if pos ∉ position.followpos then priorPos nfa symbol pos rest
    else some pos2

/-- From label `again` in `PatternMatcher::backtrack()`: pattern_matcher.hpp:379-412. Here, `history` is the remaining history entries in
reverse order, and `tail` is the entries that have already been filled in. -/
def backtrackLoop (m : Matcher) (stateIndex : Nat) : Nat → Nat → List HistoryEntry → List MatchPos → Option (List MatchPos)
  | pos, argIndex, history, tail => do
    let position ← m.nfa.positions[pos]?
    let tail := ⟨position.internalPos, argIndex⟩ :: tail
    match history with
    | [] => if stateIndex = 0 then some tail else none
    | entry :: history => do
      let priorState ← m.states[entry.priorStateIndex]?
      let prior ← priorPos m.nfa entry.symbol pos priorState.positions
      backtrackLoop m entry.priorStateIndex prior entry.argIndex history tail
termination_by structural _ _ history => history

/-- `PatternMatcher::backtrack()`: pattern_matcher.hpp:366-412. -/
def Matcher.backtrack (m : Matcher) : Option (List MatchPos) := do
  let state ← m.states[m.stateIndex]?
  let pos ← state.finalpos
  backtrackLoop m m.stateIndex pos m.numArgs m.history.reverse []

end Verif.CliPattern
