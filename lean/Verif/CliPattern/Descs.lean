import Verif.CliPattern.Format
/-!
Model of `PatternArgsParser::generate_descs()` in /repo/src/archon/cli/impl/pattern_args_parser.hpp.

The outcome `none` is a violated assertion or an index out of range. The pointer to an element in a descriptor is the index of the
element.
-/
namespace Verif.CliPattern

/-- `PatternArgsParser::Desc`: pattern_args_parser.hpp:90-101. -/
structure Desc where
  elemIndex : Nat
  value : Nat
deriving DecidableEq, Repr

/-- `Cursor` and `Frame` in `generate_descs()`: pattern_args_parser.hpp:123-132. -/
structure DFrame where
  seq : Seq
  elemIndex : Nat
  beginPos : Nat
  descIndex : Nat

/-- The variables of `generate_descs()`: pattern_args_parser.hpp:134-139. -/
structure DescState where
  frame : DFrame
  stack : List DFrame
  matchPosIndex : Nat
  descs : List Desc

/-- `pos_in_range` in `generate_descs()`: pattern_args_parser.hpp:141-143. -/
def posInRange (frame : DFrame) (elem : Elem) (matchPos : MatchPos) : Bool :=
  decide (frame.beginPos ≤ matchPos.pos) && decide (matchPos.pos < elem.endPos)

/-- `next_elem` in `generate_descs()`: pattern_args_parser.hpp:145-148. -/
def nextElem (frame : DFrame) (elem : Elem) : DFrame := { frame with elemIndex := frame.elemIndex + 1, beginPos := elem.endPos }

/-- `enter_subseq` in `generate_descs()`: pattern_args_parser.hpp:150-157. The frame keeps its beginning position. -/
def enterSubseq (t : Tables) (st : DescState) (elem : Elem) : Option DescState :=
  if elem.type = .opt ∨ elem.type = .rep then do
    let seq ← t.seqs[elem.index]?
    some { st with stack := st.frame :: st.stack, frame := { st.frame with seq, elemIndex := 0 } }
  else none

/-- The search for the branch of an alternatives construct: pattern_args_parser.hpp:215-226. The first argument is the number of remaining
branches. -/
def findBranch (t : Tables) (pos offset : Nat) : Nat → Nat → Option Nat
  | 0, _ => none
  | n + 1, i => do
    let seq ← t.seqs[offset + i]?
    if seq.endPos ≤ pos then findBranch t pos offset n (i + 1) else some i

/-- From label `again` when there is another element: pattern_args_parser.hpp:169-240. -/
def descElem (t : Tables) (positions : List MatchPos) (matchPos : MatchPos) (elemIndex : Nat) (elem : Elem) (st : DescState) :
    Option DescState :=
  match elem.type with
  | .sym =>
    if posInRange st.frame elem matchPos ∧ st.matchPosIndex + 1 < positions.length then
      some { st with
        descs := if elem.isParam then st.descs ++ [⟨elemIndex, matchPos.argIndex⟩] else st.descs
        frame := nextElem st.frame elem
        matchPosIndex := st.matchPosIndex + 1 }
    else none
  | .opt =>
    if !posInRange st.frame elem matchPos then
      some { st with descs := st.descs ++ [⟨elemIndex, 0⟩], frame := nextElem st.frame elem }
    else enterSubseq t { st with descs := st.descs ++ [⟨elemIndex, 1⟩] } elem
  | .rep =>
    if posInRange st.frame elem matchPos then
      enterSubseq t { st with descs := st.descs ++ [⟨elemIndex, 1⟩], frame := { st.frame with descIndex := st.descs.length } } elem
    else none
  | .alt => do
    let alt ← t.alts[elem.index]?
    let branchIndex ←
      if !posInRange st.frame elem matchPos then
        if alt.nullableSeqIndex < alt.numSeqs then some alt.nullableSeqIndex else none
      else findBranch t matchPos.pos alt.seqsOffset alt.numSeqs 0
    if branchIndex < alt.numSeqs then do
      let seq ← t.seqs[alt.seqsOffset + branchIndex]?
      some { st with
        descs := st.descs ++ [⟨elemIndex, branchIndex⟩]
        stack := st.frame :: st.stack
        frame := { st.frame with seq, elemIndex := 0 } }
    else none

/-- One step from label `again`: pattern_args_parser.hpp:165-267. The result is the next state, or the final list of descriptors. -/
def descStep (t : Tables) (positions : List MatchPos) (st : DescState) : Option (DescState ⊕ List Desc) := do
  let matchPos ← positions[st.matchPosIndex]?
  if st.frame.elemIndex < st.frame.seq.numElems then do
    let elemIndex := st.frame.seq.elemsOffset + st.frame.elemIndex
    let elem ← t.elems[elemIndex]?
    let st ← descElem t positions matchPos elemIndex elem st
    some (.inl st)
  else match st.stack with
    | frame :: stack => do
      let elem ← t.elems[frame.seq.elemsOffset + frame.elemIndex]?
      match elem.type with
      | .sym => none
      | .rep =>
        if posInRange frame elem matchPos then
          if frame.descIndex < st.descs.length then do
            let descs := st.descs.modify frame.descIndex (fun desc => { desc with value := desc.value + 1 })
            let st ← enterSubseq t { st with frame, stack, descs } elem
            some (.inl st)
          else none
        else some (.inl { st with frame := nextElem frame elem, stack })
      | .opt | .alt => some (.inl { st with frame := nextElem frame elem, stack })
    | [] => if st.matchPosIndex + 1 = positions.length then some (.inr st.descs) else none

/-- Steps until there is a result. The first argument after the match positions bounds the number of steps; `none` if it is not enough. -/
def descLoop (t : Tables) (positions : List MatchPos) : Nat → DescState → Option (List Desc)
  | 0, _ => none
  | fuel + 1, st => do
    match ← descStep t positions st with
    | .inl st => descLoop t positions fuel st
    | .inr descs => some descs

/-- `PatternArgsParser::generate_descs()`: pattern_args_parser.hpp:113-268. -/
def generateDescs (fuel : Nat) (t : Tables) (elemSeqIndex : Nat) (positions : List MatchPos) : Option (List Desc) := do
  let root ← t.seqs[elemSeqIndex]?
  if 0 < positions.length then descLoop t positions fuel ⟨⟨root, 0, 0, 0⟩, [], 0, []⟩ else none

end Verif.CliPattern
