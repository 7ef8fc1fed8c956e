import Mathlib.Data.Nat.Basic
import Verif.FrozenSets.Model
import Verif.RangeMap.Model
/-!
Model of the string matcher: /repo/src/archon/core/string_matcher.hpp.

Characters are integers; `lo` and `hi` are the smallest and largest value of the character type, `star` is the widened
asterisk. Position sets are stored by the model of `FrozenSets` (with its defects), and the transitions of a state are found with
a range map whose update function changes the storage of position sets.

Simplifications: the nodes of a parse tree refer to each other directly rather than by index (`m_nodes`); `std::set` is the
sorted list of its elements; `m_unchecked_position_sets` is a list; `std::size_t(-1)` as pattern index is `none`. Memory
allocation does not fail.
-/
namespace Verif.StringMatcher
open Verif.FrozenSets (Ident)
open Verif.RangeMap (Ent toKey)

/-- Reasons for failure of the construction of a matcher: undefined behavior or a failed assertion, or an ambiguity between two
patterns (`error()`: string_matcher.hpp:798-801) identified by their indexes. -/
inductive Fail where
  | ub
  | ambiguity (i j : Nat)
deriving DecidableEq, Repr

/-- The outcome of an operation that is undefined in some cases. -/
def orUb {α : Type} : Option α → Except Fail α
  | some x => .ok x
  | none => .error .ub

/-! ### Range map with a function that changes a state

These are the functions of `Verif.RangeMap` with an update function that has side effects, as it has in `build_dfa()`. -/

section
variable {S T : Type}

/-- New entry for the gap before entry `i`: range_map.hpp:172-177. -/
def gapBefore (lo hi : Int) (dflt : T) (f : S → T → Option (S × T)) (s : S) (a iFirst : Int) : Option (S × List (Ent T)) :=
  if a < iFirst then do
    let last ← toKey lo hi (iFirst - 1)
    let (s, v) ← f s dflt
    some (s, [⟨a, last, v⟩])
  else some (s, [])

/-- The loop of `RangeMap::update()` and what follows it: range_map.hpp:161-203. -/
def updateLoop (lo hi : Int) (dflt : T) (f : S → T → Option (S × T)) (b : Int) :
    List (Ent T) → Int → S → Option (S × List (Ent T))
  | [], a, s => do
    let (s, v) ← f s dflt
    some (s, [⟨a, b, v⟩])
  | i :: rest, a, s =>
    if b < i.first then do
      let (s, v) ← f s dflt
      some (s, ⟨a, b, v⟩ :: i :: rest)
    else do
      let (s, gap) ← gapBefore lo hi dflt f s a i.first
      if b < i.last then
        let first ← toKey lo hi (b + 1)
        let (s, v) ← f s i.val
        some (s, gap ++ ⟨i.first, b, v⟩ :: ⟨first, i.last, i.val⟩ :: rest)
      else
        let (s, v) ← f s i.val
        if b = i.last then some (s, gap ++ ⟨i.first, i.last, v⟩ :: rest)
        else
          let a' ← toKey lo hi (i.last + 1)
          let (s, r) ← updateLoop lo hi dflt f b rest a' s
          some (s, gap ++ ⟨i.first, i.last, v⟩ :: r)

/-- `RangeMap::update()`: range_map.hpp:137-204. -/
def update (lo hi : Int) (dflt : T) (es : List (Ent T)) (a b : Int) (f : S → T → Option (S × T)) (s : S) :
    Option (S × List (Ent T)) :=
  if a ≤ b then
    let before := es.takeWhile (fun e => e.first < a)
    let after := es.dropWhile (fun e => e.first < a)
    match before.getLast? with
    | none => do
      let (s, r) ← updateLoop lo hi dflt f b after a s
      some (s, before ++ r)
    | some j =>
      if a ≤ j.last then do
        let jlast ← toKey lo hi (a - 1)
        let (s, r) ← updateLoop lo hi dflt f b (⟨a, j.last, j.val⟩ :: after) a s
        some (s, before.dropLast ++ ⟨j.first, jlast, j.val⟩ :: r)
      else do
        let (s, r) ← updateLoop lo hi dflt f b after a s
        some (s, before ++ r)
  else none

/-- The loop of `RangeMap::defrag()`: range_map.hpp:221-236. -/
def defragLoop (lo hi : Int) (eq : T → T → Option Bool) : List (Ent T) → Ent T → Option (List (Ent T))
  | [], i => some [i]
  | j :: rest, i => do
    let next ← toKey lo hi (i.last + 1)
    let mergeable ← if j.first = next then eq i.val j.val else some false
    if mergeable then defragLoop lo hi eq rest ⟨i.first, j.last, i.val⟩
    else some (i :: (← defragLoop lo hi eq rest j))

/-- `RangeMap::defrag()`: range_map.hpp:213-238. -/
def defrag (lo hi : Int) (eq : T → T → Option Bool) : List (Ent T) → Option (List (Ent T))
  | [] => some []
  | i :: rest => defragLoop lo hi eq rest i

end

/-! ### Storage of position sets -/

/-- `FrozenSets::operator[]()`. -/
def contents (sets : List Nat) (i : Ident) : Option (List Nat) := (FrozenSets.get sets i).toOption

/-- Insertion into `std::set`. -/
def setInsert (x : Nat) : List Nat → List Nat
  | [] => [x]
  | y :: ys => if x < y then x :: y :: ys else if x = y then y :: ys else y :: setInsert x ys

/-! ### The builder -/

/-- `PositionSlot`: string_matcher.hpp:290-297. The symbol is a character or, if it is `none`, the wildcard. -/
structure Slot where
  patternIndex : Nat
  single : Bool
  symbol : Option Int
  followpos : Nat
deriving DecidableEq, Repr

/-- The members of `Builder` that persist between calls: string_matcher.hpp:169-184. -/
structure Builder where
  patterns : List Nat
  positions : List Slot
  followposSets : List (List Nat)
  startPositions : List Nat
  sets1 : List Nat
deriving DecidableEq, Repr

/-- The constructor: string_matcher.hpp:382-390. -/
def Builder.init : Builder := ⟨[], [], [[]], [], []⟩

/-- `std::vector::resize()` of the vector of follow position sets. -/
def resizeSets (xs : List (List Nat)) (n : Nat) : List (List Nat) := xs.take n ++ List.replicate (n - xs.length) []

/-- `clear()`: string_matcher.hpp:440-446. -/
def Builder.clear (b : Builder) : Builder :=
  { b with patterns := [], positions := [], followposSets := resizeSets b.followposSets 1, startPositions := [] }

/-- `empty()`: string_matcher.hpp:449-453. -/
def Builder.empty (b : Builder) : Bool := b.patterns.isEmpty

/-- `Node`: string_matcher.hpp:251-256. -/
inductive Node where
  | segment (lexeme : List Int)
  | wildcard
  | concatenation (left right : Node)
deriving DecidableEq, Repr

/-- `parse_element()` and `extract_next_token()`: string_matcher.hpp:517-541 and 545-566. The argument is the input from the
beginning of the next token. -/
def parseElement (star : Int) : List Int → Option (Node × List Int)
  | [] => none
  | c :: cs =>
    if c = star then some (.wildcard, cs)
    else some (.segment (c :: cs.takeWhile (· ≠ star)), cs.dropWhile (· ≠ star))

/-- The loop of `parse_concatenation()`: string_matcher.hpp:500-511. The first argument bounds the number of turns; every turn
consumes a character. -/
def parseLoop (star : Int) : Nat → Node → List Int → Option Node
  | _, node, [] => some node
  | 0, _, _ :: _ => none
  | k + 1, node, c :: cs => do
    let (right, rest) ← parseElement star (c :: cs)
    parseLoop star k (.concatenation node right) rest

/-- `parse()`: string_matcher.hpp:487-493 and 497-513. -/
def parse (star : Int) (pattern : List Int) : Option Node := do
  let (node, rest) ← parseElement star pattern
  parseLoop star pattern.length node rest

/-- `register_position()`: string_matcher.hpp:643-653. -/
def Builder.registerPosition (b : Builder) (symbol : Option Int) (patternIndex : Nat) : Builder × Nat :=
  ({ b with positions := b.positions ++ [⟨patternIndex, false, symbol, 0⟩] }, b.positions.length)

/-- `register_followpos(std::size_t, std::size_t)`: string_matcher.hpp:656-676. -/
def Builder.registerFollowpos (b : Builder) (pos1 pos2 : Nat) : Option Builder := do
  let slot ← b.positions[pos1]?
  if !slot.single then
    if slot.followpos = 0 then
      some { b with positions := b.positions.set pos1 { slot with single := true, followpos := pos2 } }
    else
      let set ← b.followposSets[slot.followpos]?
      some { b with followposSets := b.followposSets.set slot.followpos (setInsert pos2 set) }
  else
    some { b with
      followposSets := b.followposSets ++ [setInsert pos2 (setInsert slot.followpos [])]
      positions := b.positions.set pos1 { slot with single := false, followpos := b.followposSets.length } }

/-- The loop over the first set: string_matcher.hpp:682-685. -/
def registerEach (pos : Nat) : List Nat → Builder → Option Builder
  | [], b => some b
  | p :: ps, b => do registerEach pos ps (← b.registerFollowpos p pos)

/-- `register_followpos(PositionSet, std::size_t)`: string_matcher.hpp:680-686. -/
def Builder.registerFollowposSet (b : Builder) (set : Ident) (pos : Nat) : Option Builder := do
  registerEach pos (← contents b.sets1 set) b

/-- The inner loop: string_matcher.hpp:694-695. -/
def registerAll (pos1 : Nat) : List Nat → Builder → Option Builder
  | [], b => some b
  | p :: ps, b => do registerAll pos1 ps (← b.registerFollowpos pos1 p)

/-- The outer loop: string_matcher.hpp:693-696. -/
def registerPairs (set2 : Ident) : List Nat → Builder → Option Builder
  | [], b => some b
  | p :: ps, b => do registerPairs set2 ps (← registerAll p (← contents b.sets1 set2) b)

/-- `register_followpos(PositionSet, PositionSet)`: string_matcher.hpp:690-697. -/
def Builder.registerFollowposSets (b : Builder) (set1 set2 : Ident) : Option Builder := do
  registerPairs set2 (← contents b.sets1 set1) b

/-- `Result`: string_matcher.hpp:300-303. -/
structure Result where
  nullable : Bool
  firstpos : Ident
  lastpos : Ident
deriving DecidableEq, Repr

/-- `m_position_sets_1.freeze(pos)`. -/
def Builder.freeze (b : Builder) (pos : Nat) : Builder × Ident :=
  let (sets, i) := FrozenSets.freezeOrdered b.sets1 [pos]
  ({ b with sets1 := sets }, i)

/-- `m_position_sets_1.unite(i, j)`. -/
def Builder.unite (b : Builder) (i j : Ident) : Option (Builder × Ident) := do
  let (sets, k) ← (FrozenSets.unite 0 b.sets1 i j).toOption
  some ({ b with sets1 := sets }, k)

/-- The loop over the characters of a segment after the first: string_matcher.hpp:594-600. -/
def segmentLoop (patternIndex : Nat) : List Int → Builder → Nat → Option (Builder × Nat)
  | [], b, pos => some (b, pos)
  | c :: cs, b, pos => do
    let (b, pos2) := b.registerPosition (some c) patternIndex
    segmentLoop patternIndex cs (← b.registerFollowpos pos pos2) pos2

/-- `add_node()`: string_matcher.hpp:570-640. -/
def addNode (patternIndex : Nat) : Node → Builder → Option (Builder × Result)
  | .segment [], _ => none
  | .segment (c :: cs), b => do
    let (b, pos) := b.registerPosition (some c) patternIndex
    let (b, firstpos) := b.freeze pos
    if cs ≠ [] then
      let (b, pos) ← segmentLoop patternIndex cs b pos
      let (b, lastpos) := b.freeze pos
      some (b, ⟨false, firstpos, lastpos⟩)
    else some (b, ⟨false, firstpos, firstpos⟩)
  | .wildcard, b => do
    let (b, pos) := b.registerPosition none patternIndex
    let b ← b.registerFollowpos pos pos
    let (b, firstpos) := b.freeze pos
    some (b, ⟨true, firstpos, firstpos⟩)
  | .concatenation left right, b => do
    let (b, r1) ← addNode patternIndex left b
    let (b, r2) ← addNode patternIndex right b
    let b ← b.registerFollowposSets r1.lastpos r2.firstpos
    let (b, firstpos) ← if !r1.nullable then some (b, r1.firstpos) else b.unite r1.firstpos r2.firstpos
    let (b, lastpos) ← if !r2.nullable then some (b, r2.lastpos) else b.unite r1.lastpos r2.lastpos
    some (b, ⟨r1.nullable && r2.nullable, firstpos, lastpos⟩)

/-- Insertion of several elements into `std::set`. -/
def insertAll : List Nat → List Nat → List Nat
  | [], set => set
  | x :: xs, set => insertAll xs (setInsert x set)

/-- `do_add_pattern()`: string_matcher.hpp:456-477. The symbol of the terminal position is value-initialized, that is, it is
a character of value zero. -/
def Builder.doAddPattern (star : Int) (b : Builder) (pattern : List Int) (patternIndex : Nat) : Option Builder :=
  if pattern ≠ [] then do
    let node ← parse star pattern
    let (b, result) ← addNode patternIndex node { b with sets1 := [] }
    let b := { b with startPositions := insertAll (← contents b.sets1 result.firstpos) b.startPositions }
    let (b, term) := b.registerPosition (some 0) patternIndex
    let b := if result.nullable then { b with startPositions := setInsert term b.startPositions } else b
    b.registerFollowposSet result.lastpos term
  else
    let (b, term) := b.registerPosition (some 0) patternIndex
    some { b with startPositions := setInsert term b.startPositions }

/-- `add_pattern()`: string_matcher.hpp:401-408. -/
def Builder.addPattern (star : Int) (b : Builder) (pattern : List Int) (ident : Nat) : Option Builder :=
  { b with patterns := b.patterns ++ [ident] }.doAddPattern star pattern b.patterns.length

/-! ### Construction of the deterministic automaton -/

/-- `State`: string_matcher.hpp:237-240. -/
structure State where
  patternIndex : Option Nat
  transBegin : Nat
  transEnd : Nat
deriving DecidableEq, Repr

/-- `Transition`: string_matcher.hpp:244-247. -/
structure Transition where
  first : Int
  last : Int
  target : Nat
deriving DecidableEq, Repr

/-- The state of `build_dfa()` between turns: `m_states`, `m_transitions`, `m_unchecked_position_sets`, `m_position_sets_2` and
`state_map`. The entries of the map are in order of insertion. -/
structure Dfa where
  states : List State
  transitions : List Transition
  unchecked : List Ident
  sets2 : List Nat
  stateMap : List (Ident × Nat)
deriving DecidableEq, Repr

/-- Search in `state_map`. Two position sets are equivalent under the comparison (string_matcher.hpp:707-711) exactly if they have
the same elements. -/
def findState (sets2 : List Nat) (set : List Nat) : List (Ident × Nat) → Option (Option Nat)
  | [] => some none
  | (i, k) :: rest => do
    if (← contents sets2 i) = set then some (some k) else findState sets2 set rest

/-- `ensure_state`: string_matcher.hpp:713-728. -/
def ensureState (sets1 : List Nat) (d : Dfa) (i : Ident) : Option (Dfa × Nat) := do
  let span ← contents sets1 i
  let (sets2, set2) := FrozenSets.freezeOrdered d.sets2 span
  let stateIndex := d.stateMap.length
  match ← findState sets2 (← contents sets2 set2) d.stateMap with
  | some k =>
    let sets2 ← (FrozenSets.discardFrom 0 sets2 set2).toOption
    some ({ d with sets2 := sets2 }, k)
  | none =>
    some ({ d with sets2 := sets2, stateMap := d.stateMap ++ [(set2, stateIndex)], unchecked := d.unchecked ++ [set2] }, stateIndex)

/-- The update function: string_matcher.hpp:743-750. -/
def updateTarget (slot : Slot) (followposSets : List (List Nat)) (sets1 : List Nat) (i : Ident) : Option (List Nat × Ident) := do
  if slot.single then (FrozenSets.uniteOrdered 0 sets1 i [slot.followpos]).toOption
  else
    let set ← followposSets[slot.followpos]?
    (FrozenSets.uniteOrdered 0 sets1 i set).toOption

/-- The range of characters that a symbol stands for: string_matcher.hpp:751-759. -/
def symbolRange (lo hi : Int) : Option Int → Int × Int
  | some c => (c, c)
  | none => (lo, hi)

/-- The loop over the positions of a set: string_matcher.hpp:738-773. The state is the storage of position sets, the range map
and the pattern index. -/
def positionLoop (lo hi : Int) (allow : Bool) (b : Builder) :
    List Nat → List Nat × List (Ent Ident) × Option Nat → Except Fail (List Nat × List (Ent Ident) × Option Nat)
  | [], st => .ok st
  | pos :: rest, (sets1, targets, patternIndex) => do
    let slot ← orUb b.positions[pos]?
    if ¬ (!slot.single ∧ slot.followpos = 0) then
      let (first, last) := symbolRange lo hi slot.symbol
      let (sets1, targets) ← orUb (update lo hi ⟨0, 0⟩ targets first last (updateTarget slot b.followposSets) sets1)
      positionLoop lo hi allow b rest (sets1, targets, patternIndex)
    else
      match patternIndex with
      | none => positionLoop lo hi allow b rest (sets1, targets, some slot.patternIndex)
      | some p =>
        if p < slot.patternIndex then
          if allow then positionLoop lo hi allow b rest (sets1, targets, patternIndex)
          else .error (.ambiguity p slot.patternIndex)
        else .error .ub

/-- `equal`: string_matcher.hpp:774-778. -/
def equalSets (sets1 : List Nat) (i j : Ident) : Option Bool := do
  some (decide ((← contents sets1 i) = (← contents sets1 j)))

/-- The loop over the ranges: string_matcher.hpp:781-787. -/
def transitionLoop (sets1 : List Nat) : List (Ent Ident) → Dfa → Option Dfa
  | [], d => some d
  | e :: rest, d => do
    if e.val.size = 0 then none
    else
      let (d, k) ← ensureState sets1 d e.val
      transitionLoop sets1 rest { d with transitions := d.transitions ++ [⟨e.first, e.last, k⟩] }

/-- One turn of the main loop: string_matcher.hpp:734-791. -/
def dfaStep (lo hi : Int) (allow : Bool) (b : Builder) (d : Dfa) : Except Fail Dfa := do
  match d.unchecked with
  | [] => .error .ub
  | set2 :: _ =>
    let (sets1, targets, patternIndex) ← positionLoop lo hi allow b (← orUb (contents d.sets2 set2)) ([], [], none)
    let targets ← orUb (defrag lo hi (equalSets sets1) targets)
    let transBegin := d.transitions.length
    let d ← orUb (transitionLoop sets1 targets d)
    .ok { d with states := d.states ++ [⟨patternIndex, transBegin, d.transitions.length⟩], unchecked := d.unchecked.tail }

/-- The main loop: string_matcher.hpp:734-793. The first argument bounds the number of turns. -/
def dfaLoop (lo hi : Int) (allow : Bool) (b : Builder) : Nat → Dfa → Except Fail Dfa
  | 0, _ => .error .ub
  | k + 1, d => do
    let d ← dfaStep lo hi allow b d
    if d.unchecked ≠ [] then dfaLoop lo hi allow b k d else .ok d

/-- `build_dfa()`: string_matcher.hpp:701-794. That the bound on the number of turns suffices is part of what is proved. -/
def buildDfa (lo hi : Int) (allow : Bool) (b : Builder) : Except Fail Dfa := do
  let (sets1, i) := FrozenSets.freezeOrdered [] b.startPositions
  let (d, _) ← orUb (ensureState sets1 ⟨[], [], [], [], []⟩ i)
  dfaLoop lo hi allow b (2 ^ b.positions.length) d

/-- `BasicStringMatcher`: string_matcher.hpp:100-106. -/
structure Matcher where
  patterns : List Nat
  states : List State
  transitions : List Transition
deriving DecidableEq, Repr

/-- The default constructor: string_matcher.hpp:90. -/
def Matcher.init : Matcher := ⟨[], [], []⟩

/-- `build()`: string_matcher.hpp:420-436. The builder is not changed in a way that has an effect later. -/
def Builder.build (lo hi : Int) (allow : Bool) (b : Builder) : Except Fail Matcher := do
  let d ← buildDfa lo hi allow b
  .ok ⟨b.patterns, d.states, d.transitions⟩

/-! ### Matching -/

/-- The loop of `match()`: string_matcher.hpp:347-359. The result is the state that is reached, if any. `std::lower_bound()` finds
the first transition for which the comparison is false. -/
def matchLoop (m : Matcher) : List Int → State → Option (Option State)
  | [], state => some (some state)
  | ch :: rest, state =>
    let range := (m.transitions.take state.transEnd).drop state.transBegin
    match range.find? (fun t => ¬ t.last < ch) with
    | none => some none
    | some t =>
      if ch ≥ t.first then do matchLoop m rest (← m.states[t.target]?)
      else some none

/-- `match()`: string_matcher.hpp:338-367. The inner result is the identity of the pattern that is matched, if any. -/
def Matcher.match (m : Matcher) (string : List Int) : Option (Option Nat) :=
  if m.patterns ≠ [] then do
    match ← matchLoop m string (← m.states[0]?) with
    | none => some none
    | some state =>
      match state.patternIndex with
      | none => some none
      | some i => some (some (← m.patterns[i]?))
  else some none

/-- `is_degenerate()`: string_matcher.hpp:371-374. -/
def Matcher.isDegenerate (m : Matcher) : Bool := m.patterns.isEmpty

end Verif.StringMatcher
