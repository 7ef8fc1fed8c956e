import Verif.CliPattern.Format
/-!
Model of /repo/src/archon/cli/impl/nfa.hpp and /repo/src/archon/cli/impl/nfa_builder.hpp.

The outcome `none` is a violated assertion or an index out of range. A `std::set` of positions is a sorted list. A position set of the
builder is the list of its elements, instead of a range in `m_position_set_elems` (a vector that only grows while a pattern is being
added).
-/
namespace Verif.CliPattern

/-- `std::set::insert()`. The second component tells whether the element was inserted. -/
def setInsert (x : Nat) : List Nat → List Nat × Bool
  | [] => ([x], true)
  | y :: l => if x < y then (x :: y :: l, true) else if x = y then (y :: l, false) else
      let r := setInsert x l
      (y :: r.1, r.2)

/-- `Nfa::Position`: nfa.hpp:75-88. -/
structure Position where
  patternIndex : Nat
  internalPos : Nat
  symbol : PatternSymbol
  followpos : List Nat
deriving DecidableEq, Repr

/-- `Nfa`: nfa.hpp:48-69. -/
structure Nfa where
  positions : List Position
  starts : List Nat
deriving DecidableEq, Repr

/-- `Nfa::create_position()`: nfa.hpp:100-106. -/
def Nfa.createPosition (nfa : Nfa) (patternIndex internalPos : Nat) (symbol : PatternSymbol) : Nfa × Nat :=
  ({ nfa with positions := nfa.positions ++ [⟨patternIndex, internalPos, symbol, []⟩] }, nfa.positions.length)

/-- `Nfa::register_startpos()`: nfa.hpp:109-112. -/
def Nfa.registerStartpos (nfa : Nfa) (pos : Nat) : Nfa := { nfa with starts := (setInsert pos nfa.starts).1 }

/-- `Nfa::register_followpos()`: nfa.hpp:115-120. -/
def Nfa.registerFollowpos (nfa : Nfa) (pos1 pos2 : Nat) : Option Nfa := do
  let p ← nfa.positions[pos1]?
  some { nfa with positions := nfa.positions.set pos1 { p with followpos := (setInsert pos2 p.followpos).1 } }

/-- `NfaBuilder::position_set_union()`: nfa_builder.hpp:301-352. -/
def union : List Nat → List Nat → List Nat
  | [], b => b
  | x :: a, [] => x :: a
  | x :: a, y :: b => if x < y then x :: union a (y :: b) else if y < x then y :: union (x :: a) b else x :: union a b
termination_by a b => a.length + b.length

/-- `NfaBuilder::register_followpos(PositionSet, std::size_t)`: nfa_builder.hpp:356-363. -/
def followAll (set : List Nat) (pos : Nat) (nfa : Nfa) : Option Nfa := set.foldlM (fun nfa p => nfa.registerFollowpos p pos) nfa

/-- The inner loop of `NfaBuilder::register_followpos(PositionSet, PositionSet)`: nfa_builder.hpp:371-374. -/
def followFrom (pos : Nat) (set : List Nat) (nfa : Nfa) : Option Nfa := set.foldlM (fun nfa q => nfa.registerFollowpos pos q) nfa

/-- `NfaBuilder::register_followpos(PositionSet, PositionSet)`: nfa_builder.hpp:367-376. -/
def followSets (set1 set2 : List Nat) (nfa : Nfa) : Option Nfa := set1.foldlM (fun nfa p => followFrom p set2 nfa) nfa

/-- `NfaBuilder::Result`: nfa_builder.hpp:82-85. -/
structure Result where
  first : List Nat
  last : List Nat
  nullable : Bool
deriving DecidableEq, Repr

/-- The union in `NfaBuilder::Frame`: nfa_builder.hpp:90-102. -/
inductive Cursor where
  | seq (seq : Seq) (elemIndex : Nat)
  | alt (alt : Alt) (seqIndex : Nat)

/-- `NfaBuilder::Frame`: nfa_builder.hpp:89-104. -/
structure Frame where
  cursor : Cursor
  result : Result

/-- `init_seq` in `add_pattern()`: nfa_builder.hpp:123-129. -/
def initSeq (t : Tables) (seqIndex : Nat) : Option Frame := do
  let seq ← t.seqs[seqIndex]?
  some ⟨.seq seq 0, ⟨[], [], true⟩⟩

/-- `init_alt` in `add_pattern()`: nfa_builder.hpp:131-136. -/
def initAlt (t : Tables) (altIndex : Nat) : Option Frame := do
  let alt ← t.alts[altIndex]?
  some ⟨.alt alt 0, ⟨[], [], false⟩⟩

/-- `integrate_seq_subresult` in `add_pattern()`: nfa_builder.hpp:138-158. -/
def integrateSeq (r1 r2 : Result) (nfa : Nfa) : Option (Nfa × Result) := do
  let nfa ← followSets r1.last r2.first nfa
  some (nfa,
    { first := if !r1.nullable then r1.first else union r1.first r2.first
      last := if !r2.nullable then r2.last else union r1.last r2.last
      nullable := r1.nullable && r2.nullable })

/-- `integrate_alt_subresult` in `add_pattern()`: nfa_builder.hpp:160-169. -/
def integrateAlt (r1 r2 : Result) : Result :=
  { first := union r1.first r2.first, last := union r1.last r2.last, nullable := r1.nullable || r2.nullable }

/-- The labels in `add_pattern()`: nfa_builder.hpp:174, 179, 247, 252, and 276. -/
inductive Label where
  | seqContinue | seqBegin | altContinue | altBegin | finalize
deriving DecidableEq, Repr

/-- The variables of `add_pattern()`. -/
structure BState where
  label : Label
  frame : Frame
  stack : List Frame
  nfa : Nfa

/-- From label `seq_begin` when there is another element: nfa_builder.hpp:181-213. -/
def beginElem (t : Tables) (patternIndex : Nat) (elem : Elem) (st : BState) : Option BState :=
  match elem.type with
  | .sym =>
    if 0 < elem.endPos then do
      let symbol ← t.syms[elem.index]?
      let (nfa, pos) := st.nfa.createPosition patternIndex (elem.endPos - 1) symbol
      let (nfa, result) ← integrateSeq st.frame.result ⟨[pos], [pos], false⟩ nfa
      some { st with label := .seqContinue, frame := { st.frame with result }, nfa }
    else none
  | .opt | .rep => do
    let frame ← initSeq t elem.index
    some { st with label := .seqBegin, frame, stack := st.frame :: st.stack }
  | .alt => do
    let frame ← initAlt t elem.index
    some { st with label := .altBegin, frame, stack := st.frame :: st.stack }

/-- From the comment "seq end" when the stack is not empty: nfa_builder.hpp:220-243. -/
def endSeq (t : Tables) (subresult : Result) (frame : Frame) (stack : List Frame) (nfa : Nfa) : Option BState :=
  match frame.cursor with
  | .seq seq elemIndex => do
    let elem ← t.elems[seq.elemsOffset + elemIndex]?
    match elem.type with
    | .sym | .alt => none
    | .opt => do
      let (nfa, result) ← integrateSeq frame.result { subresult with nullable := true } nfa
      some ⟨.seqContinue, { frame with result }, stack, nfa⟩
    | .rep => do
      let nfa ← followSets subresult.last subresult.first nfa
      let (nfa, result) ← integrateSeq frame.result subresult nfa
      some ⟨.seqContinue, { frame with result }, stack, nfa⟩
  | .alt _ _ => some ⟨.altContinue, { frame with result := integrateAlt frame.result subresult }, stack, nfa⟩

/-- From the comment "alt end": nfa_builder.hpp:262-274. -/
def endAlt (t : Tables) (subresult : Result) (frame : Frame) (stack : List Frame) (nfa : Nfa) : Option BState :=
  match frame.cursor with
  | .seq seq elemIndex => do
    let elem ← t.elems[seq.elemsOffset + elemIndex]?
    if elem.type = .alt then do
      let (nfa, result) ← integrateSeq frame.result subresult nfa
      some ⟨.seqContinue, { frame with result }, stack, nfa⟩
    else none
  | .alt _ _ => none

/-- One transition between labels in `add_pattern()`: nfa_builder.hpp:174-274. -/
def step (t : Tables) (patternIndex : Nat) (st : BState) : Option BState :=
  match st.label, st.frame.cursor with
  | .seqContinue, .seq seq elemIndex =>
    if elemIndex < seq.numElems then some { st with label := .seqBegin, frame := { st.frame with cursor := .seq seq (elemIndex + 1) } }
    else none
  | .seqBegin, .seq seq elemIndex =>
    if elemIndex < seq.numElems then do
      let elem ← t.elems[seq.elemsOffset + elemIndex]?
      beginElem t patternIndex elem st
    else if st.frame.result.nullable = seq.nullable then
      match st.stack with
      | [] => some { st with label := .finalize }
      | frame :: stack => endSeq t st.frame.result frame stack st.nfa
    else none
  | .altContinue, .alt alt seqIndex =>
    if seqIndex < alt.numSeqs then some { st with label := .altBegin, frame := { st.frame with cursor := .alt alt (seqIndex + 1) } }
    else none
  | .altBegin, .alt alt seqIndex =>
    if seqIndex < alt.numSeqs then do
      let frame ← initSeq t (alt.seqsOffset + seqIndex)
      some { st with label := .seqBegin, frame, stack := st.frame :: st.stack }
    else
      match st.stack with
      | [] => none
      | frame :: stack => endAlt t st.frame.result frame stack st.nfa
  | _, _ => none

/-- From label `finalize`: nfa_builder.hpp:276-286. -/
def finalize (patternIndex : Nat) (st : BState) : Option Nfa :=
  match st.frame.cursor with
  | .seq seq _ => do
    let nfa := st.frame.result.first.foldl (fun nfa pos => nfa.registerStartpos pos) st.nfa
    let (nfa, termPos) := nfa.createPosition patternIndex seq.endPos ⟨.keyword, 0⟩
    let nfa := if st.frame.result.nullable then nfa.registerStartpos termPos else nfa
    followAll st.frame.result.last termPos nfa
  | .alt _ _ => none

/-- Transitions until label `finalize` is reached. The first argument bounds the number of transitions; `none` if it is not enough. -/
def build (t : Tables) (patternIndex : Nat) : Nat → BState → Option Nfa
  | 0, _ => none
  | fuel + 1, st => if st.label = .finalize then finalize patternIndex st else do
      let st ← step t patternIndex st
      build t patternIndex fuel st

/-- `NfaBuilder::add_pattern()`: nfa_builder.hpp:115-287. -/
def addPattern (fuel : Nat) (t : Tables) (elemSeqIndex patternIndex : Nat) (nfa : Nfa) : Option Nfa := do
  let frame ← initSeq t elemSeqIndex
  build t patternIndex fuel ⟨.seqBegin, frame, [], nfa⟩

end Verif.CliPattern
