import Verif.CliSpec.Parser
import Verif.CliSpec.Spec
/-!
The language of pattern expressions: What tokens look like, and how expressions are made of tokens.
-/
namespace Verif.CliSpec

/-- The characters that are special in expressions: space, `-`, `<`, `>`, `(`, `)`, `[`, `]`, `.`, `|`, and `,`. -/
def specials : List Nat := [32, 45, 60, 62, 40, 41, 91, 93, 46, 124, 44]

/-- What is assumed about the locale: Only the special characters are narrowed to the special characters, and they are not alphanumeric. -/
structure EnvOk (env : Env) : Prop where
  narrow : ∀ k ∈ specials, ∀ c, env.narrow c = k ↔ c = k
  alnum : ∀ k ∈ specials, env.alnum k = false

/-- All the characters are alphanumeric or dashes. -/
def Word (env : Env) (s : Str) : Prop := ∀ c ∈ s, env.alnum c = true ∨ c = 45

/-- `IsLexeme env type s`: A token of the type is written as `s`. -/
def IsLexeme (env : Env) : TokType → Str → Prop
  | .keyword, s => s = [45] ∨ ∃ c r, s = c :: r ∧ env.alnum (env.narrow c) = true ∧ Word env r
  | .shortOption, s => ∃ c, s = [45, c] ∧ c ≠ 45 ∧ c ≠ 32
  | .longOption, s => ∃ r, s = 45 :: 45 :: r ∧ Word env r
  | .valueSlot, s => ∃ r, s = 60 :: r ++ [62] ∧ 62 ∉ r
  | .leftSqBracket, s => s = [91]
  | .rightSqBracket, s => s = [93]
  | .leftParenthesis, s => s = [40]
  | .rightParenthesis, s => s = [41]
  | .ellipsis, s => s = [46, 46, 46]
  | .verticalBar, s => s = [124]
  | .comma, s => s = [44]
  | .endOfInput, s => s = []

/-- What can follow a token, so that it is not a longer token, or a different one. -/
def CanFollow (env : Env) (type : TokType) (lexeme rest : Str) : Prop :=
  match type with
  | .keyword => if lexeme = [45] then rest = [] ∨ rest.head? = some 32 else ∀ c, rest.head? = some c → ¬ (env.alnum c = true ∨ c = 45)
  | .longOption => ∀ c, rest.head? = some c → ¬ (env.alnum c = true ∨ c = 45)
  | .endOfInput => rest = []
  | _ => True

/-- `Starts env s t rest`: The first token in `s` is `t`, and it is followed by `rest`. -/
def Starts (env : Env) (s : Str) (t : Token) (rest : Str) : Prop :=
  ∃ n, s = List.replicate n 32 ++ (t.lexeme ++ rest) ∧ t.precededBySpace = decide (0 < n) ∧ IsLexeme env t.type t.lexeme ∧
    CanFollow env t.type t.lexeme rest

/-- `Lexes env s ts`: The text `s` consists of the tokens `ts`. -/
inductive Lexes (env : Env) : Str → List Token → Prop
  | done {s : Str} {t : Token} : Starts env s t [] → t.type = .endOfInput → Lexes env s []
  | token {s : Str} {t : Token} {rest : Str} {ts : List Token} : Starts env s t rest → t.type ≠ .endOfInput → Lexes env rest ts →
      Lexes env s (t :: ts)

/-- The type of token for a symbol. -/
def leafToken : LeafKind → TokType
  | .keyword => .keyword
  | .short => .shortOption
  | .long => .longOption
  | .slot => .valueSlot

/-- `Denotes n e ts`: The tokens `ts` are the expression `e`, where 1 is for alternatives, 2 for juxtapositions, 3 for repetitions, and 4 for
elements. -/
inductive Denotes : Nat → Expr → List Token → Prop
  | leaf {k : LeafKind} {t : Token} : t.type = leafToken k → Denotes 4 (.leaf k t.lexeme) [t]
  | opt {e : Expr} {t t' : Token} {ts : List Token} : t.type = .leftSqBracket → Denotes 1 e ts → t'.type = .rightSqBracket →
      Denotes 4 (.opt e) (t :: (ts ++ [t']))
  | paren {e : Expr} {t t' : Token} {ts : List Token} : t.type = .leftParenthesis → Denotes 1 e ts → t'.type = .rightParenthesis →
      Denotes 4 e (t :: (ts ++ [t']))
  | rep {e : Expr} {t : Token} {ts : List Token} : Denotes 3 e ts → t.type = .ellipsis → Denotes 3 (.rep e) (ts ++ [t])
  | jux {a b : Expr} {t : Token} {ts us : List Token} : Denotes 2 a ts → Denotes 3 b (t :: us) → t.precededBySpace = true →
      Denotes 2 (.jux a b) (ts ++ t :: us)
  | alt {a b : Expr} {t : Token} {ts us : List Token} : Denotes 1 a ts → t.type = .verticalBar → Denotes 2 b us →
      Denotes 1 (.alt a b) (ts ++ t :: us)
  | up {n : Nat} {e : Expr} {ts : List Token} : 1 ≤ n → Denotes (n + 1) e ts → Denotes n e ts

/-- Expressions separated by commas. -/
inductive Listed : List Expr → List Token → Prop
  | one {e : Expr} {ts : List Token} : Denotes 1 e ts → Listed [e] ts
  | more {es : List Expr} {e : Expr} {t : Token} {ts us : List Token} : Listed es ts → t.type = .comma → Denotes 1 e us →
      Listed (es ++ [e]) (ts ++ t :: us)

/-- The nodes represent a list of expressions. -/
inductive Forest (nodes : List Node) : List Expr → Nat → Prop
  | one {e : Expr} {i : Nat} : Tree nodes e i → Forest nodes [e] i
  | more {es : List Expr} {e : Expr} {i : Nat} {n : Node} : nodes[i]? = some n → n.type = .sequence → Forest nodes es n.left → Tree nodes e n.right →
      Forest nodes (es ++ [e]) i

/-- There is a value slot in the expression. -/
def HasSlot (e : Expr) : Prop := ∃ l, Within (.leaf .slot l) e

/-- The symbols in the expression can be written. -/
def LeavesOk (env : Env) (e : Expr) : Prop := ∀ k l, Within (.leaf k l) e → IsLexeme env (leafToken k) l

/-- `Parses env s isDeleg R`: The result of `parse_pattern()` up to the recording of the structure is `R`, whatever the limit on the depth of
recursion, if it is high enough. -/
def Parses (env : Env) (s : Str) (isDeleg : Bool) (R : PRes (Option Nat × List Node)) : Prop :=
  ∃ n, ∀ fuel, n ≤ fuel → parsePattern env fuel s isDeleg = R

end Verif.CliSpec
