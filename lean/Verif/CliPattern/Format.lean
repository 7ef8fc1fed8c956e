/-!
Data types of the processing of command-line patterns.
-/
namespace Verif.CliPattern

/-- `PatternSymbol::Type`: /repo/src/archon/cli/impl/pattern_symbol.hpp:35. -/
inductive SymType where
  | keyword | protoOption | valueSlot
deriving DecidableEq, Repr

/-- Order of `PatternSymbol::Type`: pattern_symbol.hpp:35. -/
def SymType.rank : SymType → Nat
  | .keyword => 0
  | .protoOption => 1
  | .valueSlot => 2

/-- `PatternSymbol`: pattern_symbol.hpp:33-47. -/
structure PatternSymbol where
  type : SymType
  index : Nat
deriving DecidableEq, Repr

/-- `PatternSymbol::operator<()`: pattern_symbol.hpp:88-91. -/
def PatternSymbol.lt (a b : PatternSymbol) : Bool :=
  decide (a.type.rank < b.type.rank) || (decide (a.type = b.type) && decide (a.index < b.index))

/-- `PatternStructure::Elem::Type`: /repo/src/archon/cli/impl/pattern_structure.hpp:58-63. -/
inductive ElemType where
  | sym | opt | rep | alt
deriving DecidableEq, Repr

/-- `PatternStructure::Elem`: pattern_structure.hpp:57-86. -/
structure Elem where
  type : ElemType
  isParam : Bool
  collapsible : Bool
  index : Nat
  endPos : Nat
deriving DecidableEq, Repr

/-- `PatternStructure::Seq`: pattern_structure.hpp:94-131. -/
structure Seq where
  numElems : Nat
  elemsOffset : Nat
  numParams : Nat
  endPos : Nat
  nullable : Bool
deriving DecidableEq, Repr

/-- `PatternStructure::Alt`: pattern_structure.hpp:135-147. -/
structure Alt where
  numSeqs : Nat
  seqsOffset : Nat
  nullableSeqIndex : Nat
deriving DecidableEq, Repr

/-- `PatternStructure`: pattern_structure.hpp:34-47. The lexemes of symbols are left out. -/
structure Tables where
  syms : List PatternSymbol
  elems : List Elem
  seqs : List Seq
  alts : List Alt

/-- A pattern. A sequence of elements is built by `nil` and `cons`. The branches of an alternatives construct are built by `none` and
`or`. -/
inductive Pat where
  /-- A symbol (keyword, option, or value slot) -/
  | sym (s : PatternSymbol)
  /-- Optionality construct with the sub-pattern `p` (a sequence) -/
  | opt (p : Pat)
  /-- Repetition construct with the sub-pattern `p` (a sequence) -/
  | rep (p : Pat)
  /-- Alternatives construct with the branches `p` -/
  | alt (p : Pat)
  | nil
  | cons (e s : Pat)
  | none
  | or (s b : Pat)
deriving Repr

/-- `PatternArgsParser::MatchPos`: /repo/src/archon/cli/impl/pattern_args_parser.hpp:84-87. -/
structure MatchPos where
  pos : Nat
  argIndex : Nat
deriving DecidableEq, Repr

end Verif.CliPattern
