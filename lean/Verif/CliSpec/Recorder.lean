import Verif.CliSpec.Registry
/-!
Model of `SpecParser::PatternStructureRecorder::record()` in /repo/src/archon/cli/impl/spec_parser.hpp:286-601.

The outcome `none` is a violated assertion, or an index out of range. The labels of the code are labels of the model, and a step is what is
done from one label to the next.
-/
namespace Verif.CliSpec

open Verif.CliPattern

/-- `Level::Seq`: spec_parser.hpp:171-176. -/
structure SeqLevel where
  stagedElemsOffset : Nat
  numParams : Nat
  nullable : Bool
  repeating : Bool
deriving DecidableEq, Repr

/-- `Level::Alt`: spec_parser.hpp:178-185. -/
structure AltLevel where
  stagedSeqsOffset : Nat
  nullableSeqIndex : Nat
  nullable : Bool
  repeating : Bool
  hasSeqWithParams : Bool
  multipleNullableSeqs : Bool
deriving DecidableEq, Repr

/-- `Level`: spec_parser.hpp:169-212. -/
inductive Level where
  | seq (s : SeqLevel)
  | alt (a : AltLevel)
deriving DecidableEq, Repr

/-- `Level::init_seq()`: spec_parser.hpp:199-204. -/
def initSeq (offset : Nat) : Level := .seq ⟨offset, 0, true, false⟩

/-- `Level::init_alt()`: spec_parser.hpp:206-211. -/
def initAlt (offset : Nat) : Level := .alt ⟨offset, 0, false, false, false, false⟩

/-- `Frame`: spec_parser.hpp:155-159. -/
structure Frame where
  parentType : NodeType
  node : Node
  right : Bool

/-- The variables of `record()` other than `frame` and `stack`: spec_parser.hpp:161-163, and 297-302. Also, the pattern structure, and the
`Spec` object. -/
structure Core where
  reg : Registry
  t : Tables
  level : Level
  levels : List Level
  stagedSeqs : List Seq
  stagedElems : List Elem
  nextPos : Nat

/-- `stage_elem`: spec_parser.hpp:304-311. -/
def stageElem (c : Core) (type : ElemType) (isParam nullable repeating collapsible : Bool) (index : Nat) : Option Core :=
  match c.level with
  | .seq s => some { c with
      stagedElems := c.stagedElems ++ [⟨type, isParam, collapsible, index, c.nextPos⟩]
      level := .seq ⟨s.stagedElemsOffset, s.numParams + (if isParam then 1 else 0), s.nullable && nullable,
        (s.repeating && nullable) || (s.nullable && repeating)⟩ }
  | .alt _ => none

/-- `stage_symbol`: spec_parser.hpp:313-322. -/
def stageSymbol (c : Core) (sym : PatternSymbol) (isParam : Bool) : Option Core :=
  stageElem { c with t := { c.t with syms := c.t.syms ++ [sym] }, nextPos := c.nextPos + 1 } .sym isParam false false false c.t.syms.length

/-- `stage_option`: spec_parser.hpp:324-330. -/
def stageOption (patternIndex : Nat) (c : Core) (lexeme : Str) (isLong : Bool) : Option (Except RecError Core) := do
  match ← c.reg.ensurePatternOption ⟨isLong, lexeme⟩ patternIndex with
  | .error err => some (.error err)
  | .ok (reg, protoIndex) => do
    let c ← stageSymbol { c with reg := reg } ⟨.protoOption, protoIndex⟩ false
    some (.ok c)

/-- `stage_seq`: spec_parser.hpp:332-340. -/
def stageSeq (c : Core) (offset numParams : Nat) (nullable : Bool) : Option Core :=
  if offset ≤ c.stagedElems.length then
    some { c with
      t := { c.t with elems := c.t.elems ++ c.stagedElems.drop offset }
      stagedElems := c.stagedElems.take offset
      stagedSeqs := c.stagedSeqs ++ [⟨c.stagedElems.length - offset, c.t.elems.length, numParams, c.nextPos, nullable⟩] }
  else none

/-- `add_seq`: spec_parser.hpp:342-348. -/
def addSeq (c : Core) (offset numParams : Nat) (nullable : Bool) : Option (Core × Nat) := do
  let c ← stageSeq c offset numParams nullable
  let seq ← c.stagedSeqs.getLast?
  some ({ c with t := { c.t with seqs := c.t.seqs ++ [seq] }, stagedSeqs := c.stagedSeqs.dropLast }, c.t.seqs.length)

/-- `add_alt`: spec_parser.hpp:350-360. -/
def addAlt (c : Core) (offset nullableSeqIndex : Nat) : Option (Core × Nat) :=
  if offset ≤ c.stagedSeqs.length then
    some ({ c with
      t := { c.t with seqs := c.t.seqs ++ c.stagedSeqs.drop offset,
                      alts := c.t.alts ++ [⟨c.stagedSeqs.length - offset, c.t.seqs.length, nullableSeqIndex⟩] }
      stagedSeqs := c.stagedSeqs.take offset }, c.t.alts.length)
  else none

/-- `open_seq`: spec_parser.hpp:372-375. -/
def openSeq (c : Core) : Core := { c with levels := c.level :: c.levels, level := initSeq c.stagedElems.length }

/-- `close_seq`: spec_parser.hpp:377-385. -/
def closeSeq (c : Core) : Option (Core × Nat) :=
  match c.level, c.levels with
  | .seq s, l :: ls => do
    let (c, i) ← addSeq c s.stagedElemsOffset s.numParams s.nullable
    some ({ c with level := l, levels := ls }, i)
  | _, _ => none

/-- `close_seq_and_stage_as_branch`: spec_parser.hpp:387-402. -/
def closeBranch (c : Core) : Option Core :=
  match c.level, c.levels with
  | .seq s, .alt a :: ls => do
    let c ← stageSeq c s.stagedElemsOffset s.numParams s.nullable
    some { c with
      level := .alt ⟨a.stagedSeqsOffset, a.nullableSeqIndex + (if a.nullable || s.nullable then 0 else 1), a.nullable || s.nullable,
        a.repeating || s.repeating, a.hasSeqWithParams || decide (0 < s.numParams), a.multipleNullableSeqs || (a.nullable && s.nullable)⟩
      levels := ls }
  | _, _ => none

/-- `open_alt`: spec_parser.hpp:404-407. -/
def openAlt (c : Core) : Core := { c with levels := c.level :: c.levels, level := initAlt c.stagedSeqs.length }

/-- `close_alt`: spec_parser.hpp:409-416. -/
def closeAlt (c : Core) : Option (Core × Nat) :=
  match c.level, c.levels with
  | .alt a, l :: ls => do
    let (c, i) ← addAlt c a.stagedSeqsOffset a.nullableSeqIndex
    some ({ c with level := l, levels := ls }, i)
  | _, _ => none

/-- The labels `node_1` and `node_2`, with the variables of the function: spec_parser.hpp:425 and 479. -/
inductive Config where
  | node1 (frame : Frame) (stack : List Frame) (c : Core)
  | node2 (stack : List Frame) (c : Core)

/-- What a step leads to: Another label, the label `finish`, or an error. -/
inductive Next where
  | goto (c : Config)
  | finish (c : Core)
  | fail (err : RecError)

/-- `enter_node`: spec_parser.hpp:362-370. -/
def enterNode (nodes : List Node) (frame : Frame) (stack : List Frame) (c : Core) (nodeIndex : Nat) : Option Next := do
  let node ← nodes[nodeIndex]?
  some (.goto (.node1 ⟨frame.node.type, node, false⟩ (frame :: stack) c))

/-- From the label `node_1` to the next label: spec_parser.hpp:426-477. -/
def stepNode1 (nodes : List Node) (patternIndex : Nat) (frame : Frame) (stack : List Frame) (c : Core) : Option Next :=
  match frame.node.type with
  | .keyword => do
    let (reg, i) := c.reg.ensureKeyword frame.node.lexeme
    let c ← stageSymbol { c with reg := reg } ⟨.keyword, i⟩ false
    some (.goto (.node2 stack c))
  | .shortOption => do
    match ← stageOption patternIndex c frame.node.lexeme false with
    | .error err => some (.fail err)
    | .ok c => some (.goto (.node2 stack c))
  | .longOption => do
    match ← stageOption patternIndex c frame.node.lexeme true with
    | .error err => some (.fail err)
    | .ok c => some (.goto (.node2 stack c))
  | .valueSlot => do
    let c ← stageSymbol c ⟨.valueSlot, 0⟩ true
    some (.goto (.node2 stack c))
  | .optionality | .repetition => enterNode nodes frame stack (openSeq c) frame.node.left
  | .juxtaposition => enterNode nodes frame stack c frame.node.left
  | .alternatives =>
    enterNode nodes frame stack (if frame.parentType ≠ .alternatives then openSeq (openAlt c) else c) frame.node.left
  | .sequence => none

/-- From the label `node_2` to the next label: spec_parser.hpp:480-593. -/
def stepNode2 (nodes : List Node) (stack : List Frame) (c : Core) : Option Next :=
  match stack with
  | [] => some (.finish c)
  | frame :: stack =>
    match frame.node.type with
    | .optionality =>
      match c.level with
      | .seq s =>
        if s.nullable then some (.fail .optNullable)
        else do
          let (c, i) ← closeSeq c
          let c ← stageElem c .opt true true s.repeating (decide (s.numParams = 0)) i
          some (.goto (.node2 stack c))
      | .alt _ => none
    | .repetition =>
      match c.level with
      | .seq s =>
        if s.nullable then some (.fail .repNullable)
        else if s.repeating then some (.fail .repRepeating)
        else do
          let (c, i) ← closeSeq c
          let c ← stageElem c .rep true false true (decide (s.numParams = 0)) i
          some (.goto (.node2 stack c))
      | .alt _ => none
    | .juxtaposition =>
      if frame.right then some (.goto (.node2 stack c))
      else enterNode nodes { frame with right := true } stack c frame.node.right
    | .alternatives =>
      if frame.right then
        if frame.parentType ≠ .alternatives then do
          let c ← closeBranch c
          match c.level with
          | .alt a =>
            if a.multipleNullableSeqs then some (.fail .altNullable)
            else do
              let (c, i) ← closeAlt c
              let c ← stageElem c .alt true a.nullable a.repeating (!a.hasSeqWithParams) i
              some (.goto (.node2 stack c))
          | .seq _ => none
        else some (.goto (.node2 stack c))
      else do
        let c ← closeBranch c
        enterNode nodes { frame with right := true } stack (openSeq c) frame.node.right
    | _ => none

/-- One step. -/
def recStep (nodes : List Node) (patternIndex : Nat) : Config → Option Next
  | .node1 frame stack c => stepNode1 nodes patternIndex frame stack c
  | .node2 stack c => stepNode2 nodes stack c

/-- From the label `finish`: spec_parser.hpp:596-600. -/
def finish (c : Core) : Option (Registry × Tables × Nat) :=
  match c.level, c.levels with
  | .seq s, [] => do
    let (c, i) ← addSeq c 0 s.numParams s.nullable
    some (c.reg, c.t, i)
  | _, _ => none

/-- The steps of `record()`. The first argument is a limit on the number of steps. -/
def recLoop (nodes : List Node) (patternIndex : Nat) : Nat → Config → Option (Except RecError (Registry × Tables × Nat))
  | 0, _ => none
  | fuel + 1, config => do
    match ← recStep nodes patternIndex config with
    | .goto config => recLoop nodes patternIndex fuel config
    | .finish c => do
      let r ← finish c
      some (.ok r)
    | .fail err => some (.error err)

/-- `record()`: spec_parser.hpp:286-601. The pattern is empty if there is no node. The result is the new state of the `Spec` object and
of the pattern structure, and the index of the root sequence. -/
def record (fuel : Nat) (nodes : List Node) (nodeIndex : Option Nat) (patternIndex : Nat) (reg : Registry) (t : Tables) :
    Option (Except RecError (Registry × Tables × Nat)) :=
  let c : Core := ⟨reg, t, initSeq 0, [], [], [], 0⟩
  match nodeIndex with
  | some i => do
    let node ← nodes[i]?
    recLoop nodes patternIndex fuel (.node1 ⟨.juxtaposition, node, false⟩ [] c)
  | none => do
    let r ← finish c
    some (.ok r)

end Verif.CliSpec
