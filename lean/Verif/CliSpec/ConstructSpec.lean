import Verif.CliSpec.Construct
import Verif.CliSpec.OptionsSpec
import Verif.CliPattern.ArgsSpec
/-!
What specifications of command-line processors mean.
-/
namespace Verif.CliSpec

open Verif.CliPattern

/-- What a symbol in a pattern is recognized by, if it is an option. -/
def leafName : LeafKind → Str → Option OptName
  | .short, l => some (.short (l.getD 1 0))
  | .long, l => some (.long (l.drop 2))
  | _, _ => none

/-- `Means env s oe`: The text `s` is blank, or it is the expression. -/
def Means (env : Env) (s : Str) : Option Expr → Prop
  | none => Lexes env s []
  | some e => ∃ ts, Lexes env s ts ∧ Denotes 2 e ts

/-- The pattern that an expression stands for, when the text is not blank. -/
def patOf (σ : LeafKind → Str → PatternSymbol) : Option Expr → Pat
  | none => .nil
  | some e => pat σ e

/-- Symbols that are told apart only by whether they are value slots, as this is what matters for parameters of functions. -/
def slotOrNot : LeafKind → Str → PatternSymbol
  | .slot, _ => ⟨.valueSlot, 0⟩
  | _, _ => ⟨.keyword, 0⟩

/-- `Has os i n`: The option with index `i` is recognized by `n`. -/
def Has (os : List (List Form × ArgSpec)) (i : Nat) (n : OptName) : Prop := ∃ p, os[i]? = some p ∧ n ∈ p.1.map nameOf

/-- Something is wrong with an expression. -/
def Flawed (ds : List OptionDecl) (os : List (List Form × ArgSpec)) (e : Expr) : RecError → Prop
  | .optNullable => ∃ a, Within (.opt a) e ∧ Matches a []
  | .repNullable => ∃ a, Within (.rep a) e ∧ Matches a []
  | .repRepeating => ∃ a, Within (.rep a) e ∧ ∀ σ, ∃ xs, xs ≠ [] ∧ ∀ n, 0 < n → Path (pat σ a) 0 (List.replicate n xs).flatten
  | .altNullable => ∃ a b, Within (.alt a b) e ∧ Matches a [] ∧ Matches b []
  | .refTakesArg => ∃ k l n i p, Within (.leaf k l) e ∧ leafName k l = some n ∧ Has os i n ∧ os[i]? = some p ∧ p.2.allow = true
  | .refShortCircuit => ∃ k l n i d, Within (.leaf k l) e ∧ leafName k l = some n ∧ Has os i n ∧ ds[i]? = some d ∧ d.shortCircuit
  | .refFurtherArgs => ∃ k l n i d, Within (.leaf k l) e ∧ leafName k l = some n ∧ Has os i n ∧ ds[i]? = some d ∧ d.furtherArgs

/-- `PatternDeclared env ds os d oe`: There is nothing wrong with the declaration of a pattern when the options are those of `ds` and `os`. -/
structure PatternDeclared (env : Env) (ds : List OptionDecl) (os : List (List Form × ArgSpec)) (d : PatternDecl) (oe : Option Expr) : Prop where
  means : Means env d.pattern oe
  slots : d.action.isDeleg = true → ∀ e, oe = some e → ¬ HasSlot e
  sound : ∀ e err, oe = some e → ¬ Flawed ds os e err
  attr : d.attr.toNat < 2
  fits : ∀ ts, d.action = .func ts → Fits (patOf slotOrNot oe) ts

/-- What is true of a specification when an error is reported. -/
def SpecErrorTrue (env : Env) (ds : List OptionDecl) (os : List (List Form × ArgSpec)) (ps : List PatternDecl) : SpecError → Prop
  | .options err => DeclErrorTrue env ds err
  | .parse i _ => ∃ d, ps[i]? = some d ∧ ¬ ∃ oe, Means env d.pattern oe ∧ (d.action.isDeleg = true → ∀ e, oe = some e → ¬ HasSlot e)
  | .record i err => ∃ d e, ps[i]? = some d ∧ Means env d.pattern (some e) ∧ Flawed ds os e err
  | .pattern i .badAttr => ∃ d, ps[i]? = some d ∧ 2 ≤ d.attr.toNat
  | .pattern i .funcMismatch => ∃ d oe ts, ps[i]? = some d ∧ Means env d.pattern oe ∧ d.action = .func ts ∧ ¬ Fits (patOf slotOrNot oe) ts

/-- The index of the pattern that an error is about. -/
def SpecError.patternIndex : SpecError → Option Nat
  | .options _ => none
  | .parse i _ | .record i _ | .pattern i _ => some i

/-- The types of the parameters of a function. -/
def PatternAction.Typed : PatternAction → Prop
  | .func ts => isList ts ∧ TyOk ts
  | _ => True

/-- `Builds env ds ps R`: The outcome of the constructor is `R`, whatever the limits on recursion and steps, if they are high enough. -/
def Builds (env : Env) (ds : List OptionDecl) (ps : List PatternDecl) (R : Except SpecError SpecState) : Prop :=
  ∃ n, ∀ fuel, n ≤ fuel → construct env fuel ds ps = some R

/-- The patterns of a specification. If there are none, there is one which is empty, and has no action. -/
def withDefault : List PatternDecl → List PatternDecl
  | [] => [⟨[], 0, .null⟩]
  | ps => ps

/-- The symbol is used in one of the patterns. -/
def Uses (es : List (Option Expr)) (k : LeafKind) (l : Str) : Prop := ∃ e, some e ∈ es ∧ Within (.leaf k l) e

/-- `OptUsed os es n`: The option that is recognized by `n` is used in one of the patterns, possibly under another name. -/
def OptUsed (os : List (List Form × ArgSpec)) (es : List (Option Expr)) (n : OptName) : Prop :=
  ∃ k l n', Uses es k l ∧ leafName k l = some n' ∧ (n' = n ∨ ∃ i, Has os i n ∧ Has os i n')

/-- What a pattern is to the pattern matcher. -/
def PatternInfo.spec (p : PatternInfo) : PatternSpec := ⟨p.elemSeqIndex, p.action.isDeleg⟩

end Verif.CliSpec
