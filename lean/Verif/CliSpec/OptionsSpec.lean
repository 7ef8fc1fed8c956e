import Verif.CliSpec.Options
import Verif.CliSpec.ParserSpec
import Mathlib.Data.List.Forall2
/-!
What declarations of options mean.
-/
namespace Verif.CliSpec

/-- What an option is recognized by on the command line: `-c`, or `--name`. -/
inductive OptName where
  | short (c : Nat)
  | long (name : Str)
deriving DecidableEq, Repr

/-- The expression that a form of an option is. -/
def formExpr (f : Form) : Expr := .leaf (if f.isLong then .long else .short) f.lexeme

/-- What an option with this form is recognized by. -/
def nameOf (f : Form) : OptName := if f.isLong then .long (f.lexeme.drop 2) else .short (f.lexeme.getD 1 0)

/-- `FormsOf env s fs`: The text `s` lists the forms `fs`, separated by commas. -/
def FormsOf (env : Env) (s : Str) (fs : List Form) : Prop :=
  (Lexes env s [] ∧ fs = []) ∨ ∃ ts, Lexes env s ts ∧ Listed (fs.map formExpr) ts

/-- `ArgOf env s a`: The text `s` is blank, or it is `<x>`, when an argument is required, or it is `[<x>]`, when an argument is allowed, but not
required. -/
inductive ArgOf (env : Env) (s : Str) : ArgSpec → Prop
  | absent : Lexes env s [] → ArgOf env s ⟨false, false⟩
  | required {ts : List Token} {l : Str} : Lexes env s ts → Denotes 1 (.leaf .slot l) ts → ArgOf env s ⟨true, true⟩
  | optional {ts : List Token} {l : Str} : Lexes env s ts → Denotes 1 (.opt (.leaf .slot l)) ts → ArgOf env s ⟨true, false⟩

/-- The option is short-circuiting. -/
def OptionDecl.shortCircuit (d : OptionDecl) : Prop := d.attr.toNat % 2 = 1

/-- Further arguments are values when the option is given. -/
def OptionDecl.furtherArgs (d : OptionDecl) : Prop := d.attr.toNat / 2 % 2 = 1

/-- `Declared env d fs a`: There is nothing wrong with the declaration, seen by itself. The forms are `fs`, and the argument is `a`. -/
structure Declared (env : Env) (d : OptionDecl) (fs : List Form) (a : ArgSpec) : Prop where
  forms : FormsOf env d.forms fs
  arg : ArgOf env d.arg a
  some : fs ≠ []
  attr : d.attr.toNat < 8
  plain : a.allow = true → ¬ d.shortCircuit ∧ ¬ d.furtherArgs
  action : a.allow = true → d.allowArg = true ∧ (d.requireArg = true → a.require = true)

/-- `AllDeclared env ds ps`: There is nothing wrong with any of the declarations, and no two options are recognized by the same. -/
def AllDeclared (env : Env) (ds : List OptionDecl) (ps : List (List Form × ArgSpec)) : Prop :=
  List.Forall₂ (fun d p => Declared env d p.1 p.2) ds ps ∧
  ∀ (i j : Nat) (p q : List Form × ArgSpec) (n : OptName), ps[i]? = some p → ps[j]? = some q → n ∈ p.1.map nameOf → n ∈ q.1.map nameOf → i = j

/-- The proto option that is found for a name. -/
def protoNamed (r : Registry) : OptName → Option Nat
  | .short c => r.findShort c
  | .long l => r.findLong l

/-- The index of the declared option that is found for a name. -/
def optionNamed (r : Registry) (n : OptName) : Option Nat := (protoNamed r n).bind fun i => r.protos[i]?.bind Proto.optionIndex

/-- What is true of a list of declarations when an error is reported. -/
def DeclErrorTrue (env : Env) (ds : List OptionDecl) : DeclError → Prop
  | .forms i _ => ∃ d, ds[i]? = some d ∧ ¬ ∃ fs, FormsOf env d.forms fs
  | .arg i _ => ∃ d, ds[i]? = some d ∧ ¬ ∃ a, ArgOf env d.arg a
  | .option i .noForms => ∃ d, ds[i]? = some d ∧ FormsOf env d.forms []
  | .option i .badAttr => ∃ d, ds[i]? = some d ∧ 8 ≤ d.attr.toNat
  | .option i .argShortCircuit => ∃ d a, ds[i]? = some d ∧ ArgOf env d.arg a ∧ a.allow = true ∧ d.shortCircuit
  | .option i .argFurtherArgs => ∃ d a, ds[i]? = some d ∧ ArgOf env d.arg a ∧ a.allow = true ∧ d.furtherArgs
  | .option i .argNotAccepted => ∃ d a, ds[i]? = some d ∧ ArgOf env d.arg a ∧ a.allow = true ∧ d.allowArg = false
  | .option i .argNotOptional => ∃ d, ds[i]? = some d ∧ ArgOf env d.arg ⟨true, false⟩ ∧ d.requireArg = true
  | .option i (.formReuse lexeme k) => ∃ d fs f d' fs', ds[i]? = some d ∧ FormsOf env d.forms fs ∧ f ∈ fs ∧ f.lexeme = lexeme ∧
      1 ≤ k ∧ k - 1 < i ∧ ds[k - 1]? = some d' ∧ FormsOf env d'.forms fs' ∧ nameOf f ∈ fs'.map nameOf

/-- The index of the declaration that an error is about. -/
def DeclError.index : DeclError → Nat
  | .forms i _ | .arg i _ | .option i _ => i

/-- `Declares env ds R`: The result of the loop over options is `R`, whatever the limit on the depth of recursion, if it is high enough. -/
def Declares (env : Env) (ds : List OptionDecl) (R : Except DeclError Registry) : Prop :=
  ∃ n, ∀ fuel, n ≤ fuel → declareOptions env fuel emptyRegistry 0 ds = some R

end Verif.CliSpec
