import Verif.CliPattern.DescSpec
import Verif.CliSpec.Registry
/-!
What pattern expressions mean.
-/
namespace Verif.CliSpec

open Verif.CliPattern

/-- What a symbol in a pattern expression is. -/
inductive LeafKind where
  | keyword | short | long | slot
deriving DecidableEq, Repr

/-- A pattern expression. -/
inductive Expr where
  | leaf (k : LeafKind) (lexeme : Str)
  | opt (e : Expr)
  | rep (e : Expr)
  | jux (a b : Expr)
  | alt (a b : Expr)
deriving DecidableEq, Repr

/-- The type of node for a symbol. -/
def leafType : LeafKind → NodeType
  | .keyword => .keyword
  | .short => .shortOption
  | .long => .longOption
  | .slot => .valueSlot

/-- `Tree nodes e i`: The nodes represent the expression `e`, and the root of it is at the index `i`. -/
def Tree (nodes : List Node) : Expr → Nat → Prop
  | .leaf k l, i => ∃ n, nodes[i]? = some n ∧ n.type = leafType k ∧ n.lexeme = l
  | .opt e, i => ∃ n, nodes[i]? = some n ∧ n.type = .optionality ∧ Tree nodes e n.left
  | .rep e, i => ∃ n, nodes[i]? = some n ∧ n.type = .repetition ∧ Tree nodes e n.left
  | .jux a b, i => ∃ n, nodes[i]? = some n ∧ n.type = .juxtaposition ∧ Tree nodes a n.left ∧ Tree nodes b n.right
  | .alt a b, i => ∃ n, nodes[i]? = some n ∧ n.type = .alternatives ∧ Tree nodes a n.left ∧ Tree nodes b n.right

/-- `Matches e w`: The sequence of symbols `w` matches the expression. -/
def Matches : Expr → List (LeafKind × Str) → Prop
  | .leaf k l, w => w = [(k, l)]
  | .opt e, w => w = [] ∨ Matches e w
  | .rep e, w => ∃ ws : List (List (LeafKind × Str)), ws ≠ [] ∧ (∀ v ∈ ws, Matches e v) ∧ w = ws.flatten
  | .jux a b, w => ∃ u v, Matches a u ∧ Matches b v ∧ w = u ++ v
  | .alt a b, w => Matches a w ∨ Matches b w

/-- `Within a e`: The expression `a` is a part of the expression `e`, or is `e`. -/
inductive Within (a : Expr) : Expr → Prop
  | here : Within a a
  | opt {e : Expr} : Within a e → Within a (.opt e)
  | rep {e : Expr} : Within a e → Within a (.rep e)
  | juxLeft {e f : Expr} : Within a e → Within a (.jux e f)
  | juxRight {e f : Expr} : Within a f → Within a (.jux e f)
  | altLeft {e f : Expr} : Within a e → Within a (.alt e f)
  | altRight {e f : Expr} : Within a f → Within a (.alt e f)

/-- A sequence of elements as a pattern. -/
def seqOf : List Pat → Pat
  | [] => .nil
  | e :: es => .cons e (seqOf es)

/-- A list of branches as a pattern. -/
def altOf : List Pat → Pat
  | [] => .none
  | s :: ss => .or s (altOf ss)

/-- The elements of the sequence that an expression stands for, and the branches that it stands for. A juxtaposition of juxtapositions is one
sequence, and alternatives of alternatives are the branches of one construct. Here, `σ` maps symbols to symbols of the pattern. -/
def flat (σ : LeafKind → Str → PatternSymbol) : Expr → List Pat × List Pat
  | .leaf k l => ([.sym (σ k l)], [seqOf [.sym (σ k l)]])
  | .opt e => ([.opt (seqOf (flat σ e).1)], [seqOf [.opt (seqOf (flat σ e).1)]])
  | .rep e => ([.rep (seqOf (flat σ e).1)], [seqOf [.rep (seqOf (flat σ e).1)]])
  | .jux a b => ((flat σ a).1 ++ (flat σ b).1, [seqOf ((flat σ a).1 ++ (flat σ b).1)])
  | .alt a b => ([.alt (altOf ((flat σ a).2 ++ (flat σ b).2))], (flat σ a).2 ++ (flat σ b).2)

/-- The pattern that an expression stands for. -/
def pat (σ : LeafKind → Str → PatternSymbol) (e : Expr) : Pat := seqOf (flat σ e).1

/-- The symbol that a keyword, an option, or a value slot is looked up as. -/
def symbolOf (r : Registry) : LeafKind → Str → Option PatternSymbol
  | .keyword, l => (r.findKeyword l).map fun i => ⟨.keyword, i⟩
  | .short, l => (l[1]?.bind r.findShort).map fun i => ⟨.protoOption, i⟩
  | .long, l => (r.findLong (l.drop 2)).map fun i => ⟨.protoOption, i⟩
  | .slot, _ => some ⟨.valueSlot, 0⟩

/-- Symbols are mapped as they are looked up. -/
def Agrees (r : Registry) (σ : LeafKind → Str → PatternSymbol) : Prop := ∀ k l s, symbolOf r k l = some s → σ k l = s

/-- The declaration of the option that a symbol refers to, if there is one. -/
def optionOf (r : Registry) (k : LeafKind) (l : Str) : Option OptionInfo := do
  let s ← symbolOf r k l
  if s.type = .protoOption then do
    let proto ← r.protos[s.index]?
    let j ← proto.optionIndex
    r.options[j]?
  else none

/-- There is something wrong with a reference to an option from a pattern. -/
def BadRef (o : OptionInfo) : RecError → Prop
  | .refTakesArg => o.arg.allow = true
  | .refShortCircuit => o.shortCircuit = true
  | .refFurtherArgs => o.furtherArgs = true
  | _ => False

/-- What is true of an expression when an error is reported. -/
def ErrorTrue (r : Registry) (e : Expr) : RecError → Prop
  | .optNullable => ∃ a, Within (.opt a) e ∧ Matches a []
  | .repNullable => ∃ a, Within (.rep a) e ∧ Matches a []
  | .repRepeating => ∃ a, Within (.rep a) e ∧ ∀ σ, ∃ xs, xs ≠ [] ∧ ∀ n, 0 < n → Path (pat σ a) 0 (List.replicate n xs).flatten
  | .altNullable => ∃ a b, Within (.alt a b) e ∧ Matches a [] ∧ Matches b []
  | err => ∃ k l o, Within (.leaf k l) e ∧ optionOf r k l = some o ∧ BadRef o err

/-- Short options have a character after the dash, and long options have two dashes. -/
def LexOk : Expr → Prop
  | .leaf .short l | .leaf .long l => 2 ≤ l.length
  | .leaf _ _ => True
  | .opt e | .rep e => LexOk e
  | .jux a b | .alt a b => LexOk a ∧ LexOk b

/-- The registered keywords and options are in order: Indexes are in range, distinct keywords have distinct indexes, and options are not
mixed up. -/
structure RegOk (r : Registry) : Prop where
  keyword : ∀ l i, r.findKeyword l = some i → r.keywords[i]? = some l
  short : ∀ c i, r.findShort c = some i → i < r.protos.length
  long : ∀ l i, r.findLong l = some i → i < r.protos.length
  option : ∀ (i : Nat) (p : Proto) (j : Nat), r.protos[i]? = some p → p.optionIndex = some j → j < r.options.length

/-- `r'` has everything that is in `r`. -/
structure Registry.Le (r r' : Registry) : Prop where
  symbol : ∀ k l s, symbolOf r k l = some s → symbolOf r' k l = some s
  option : ∀ k l, optionOf r k l = optionOf r' k l

/-- `t'` has everything that is in `t`. -/
structure Below (t t' : Tables) : Prop where
  syms : t.syms <+: t'.syms
  elems : t.elems <+: t'.elems
  seqs : t.seqs <+: t'.seqs
  alts : t.alts <+: t'.alts

end Verif.CliSpec
