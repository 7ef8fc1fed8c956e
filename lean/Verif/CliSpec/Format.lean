import Verif.CliPattern.Format
/-!
Data types of the parsing of specifications of patterns and options.
-/
namespace Verif.CliSpec

/-- A string. Characters are represented by numbers. -/
abbrev Str := List Nat

/-- `SpecParser::Node::Type`: /repo/src/archon/cli/impl/spec_parser.hpp:93-94. -/
inductive NodeType where
  | keyword | shortOption | longOption | valueSlot | optionality | repetition | juxtaposition | alternatives | sequence
deriving DecidableEq, Repr

/-- `SpecParser::Node`: spec_parser.hpp:92-98. -/
structure Node where
  type : NodeType
  left : Nat
  right : Nat
  lexeme : Str
deriving DecidableEq, Repr

/-- The errors that are reported while the structure of a pattern is recorded: spec_parser.hpp:502-503, 521-522, 536-537, and 576-577, and
/repo/src/archon/cli/impl/spec.hpp:241-245. -/
inductive RecError where
  | optNullable | repNullable | repRepeating | altNullable
  | refTakesArg | refShortCircuit | refFurtherArgs
deriving DecidableEq, Repr

end Verif.CliSpec
