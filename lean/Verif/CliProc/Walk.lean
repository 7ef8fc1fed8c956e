import Verif.CliProc.ProcessSpec
/-!
What happens, item by item, as command-line arguments are processed.
-/
namespace Verif.CliProc

open Verif.CliPattern Verif.CliSpec

/-- What has happened so far: What patterns have been matched against, and the indexes of the arguments, whether matching is still going on, the
reported errors, and the declared options that were given. In the latter, there is the index of the argument, and the index of the option. -/
structure Progress where
  toks : List (Tok × Nat)
  matching : Bool
  reports : List (Nat × Message)
  given : List (Nat × Nat × OptName × Option Str)

/-- What patterns have been matched against. -/
def Progress.word (a : Progress) : List Tok := a.toks.map Prod.fst

/-- Report an error. -/
def Progress.report (a : Progress) (i : Nat) (m : Message) : Progress := { a with reports := a.reports ++ [(i, m)] }

variable (D : Cmd)

/-- How an argument is rejected. -/
def Cmd.Rejection (u : List Tok) (arg : Str) (m : Message) : Prop := (D.GoesOn u ∧ m = .mismatching arg) ∨ (¬ D.GoesOn u ∧ m = .extraneous arg)

/-- How something is matched. -/
inductive TokStep (i : Nat) (arg : Str) (t : Tok) (a : Progress) : Option Outcome → Progress → Prop
  | take : D.Begins (a.word ++ [t]) → TokStep i arg t a none { a with toks := a.toks ++ [(t, i)] }
  | go {m : Message} : ¬ D.Begins (a.word ++ [t]) → D.Rejection a.word arg m → ¬ D.MayDelegate a.word →
      TokStep i arg t a none { a.report i m with matching := false }
  | stop {m : Message} : ¬ D.Begins (a.word ++ [t]) → D.Rejection a.word arg m → D.MayDelegate a.word → TokStep i arg t a (some .failed) (a.report i m)

/-- How an option is recorded. -/
inductive Gives (i : Nat) (n : OptName) (v : Option Str) (a : Progress) : Progress → Prop
  | declared {j : Nat} : Has D.os j n → Gives i n v a { a with given := a.given ++ [(i, j, n, v)] }
  | other : (∀ j, ¬ Has D.os j n) → Gives i n v a a

/-- What happens for an item in the argument `arg` with index `i`. -/
inductive ItemStep (i : Nat) (further : Bool) (arg : Str) (a : Progress) : Item → Option Outcome → Progress → Prop
  | missing {n : OptName} {first : Bool} : ItemStep i further arg a (.missing n first) none (a.report i (missingMessage n first arg))
  | unexpected {n : OptName} {v : Str} : ItemStep i further arg a (.unexpected n v) none (a.report i (.notAllowed v (form n) arg))
  | unknownGo {n : OptName} {first : Bool} : ¬ D.MayDelegate a.word →
      ItemStep i further arg a (.unknown n first) none { a.report i (unknownMessage n first arg) with matching := false }
  | unknownStop {n : OptName} {first : Bool} : D.MayDelegate a.word →
      ItemStep i further arg a (.unknown n first) (some .failed) (a.report i (unknownMessage n first arg))
  | shorts {n : OptName} {j : Nat} : Has D.os j n → D.Shorts n → ItemStep i further arg a (.option n none) (some (.shorted j)) a
  | apart {n : OptName} {v : Option Str} {a' : Progress} : ¬ D.Shorts n → ¬ D.InPattern n ∨ v ≠ none ∨ a.matching = false → Gives D i n v a a' →
      ItemStep i further arg a (.option n v) none a'
  | inPattern {n : OptName} {r : Option Outcome} {a' a'' : Progress} : ¬ D.Shorts n → D.InPattern n → a.matching = true → Gives D i n none a a' →
      TokStep D i arg (.option n) a' r a'' → ItemStep i further arg a (.option n none) r a''
  | skipped {s : Str} : a.matching = false → ItemStep i further arg a (.word s) none a
  | word {s : Str} {t : Tok} {r : Option Outcome} {a' : Progress} : a.matching = true → Turns D further a.word (.word s) t → TokStep D i arg t a r a' →
      ItemStep i further arg a (.word s) r a'

/-- What happens for a list of items. -/
inductive ItemsStep (i : Nat) (further : Bool) (arg : Str) : Progress → List Item → Option Outcome → Progress → Prop
  | done {a : Progress} : ItemsStep i further arg a [] none a
  | stop {a a' : Progress} {it : Item} {items : List Item} {o : Outcome} : ItemStep D i further arg a it (some o) a' →
      ItemsStep i further arg a (it :: items) (some o) a'
  | next {a a' a'' : Progress} {it : Item} {items : List Item} {r : Option Outcome} : ItemStep D i further arg a it none a' →
      ItemsStep i further arg a' items r a'' → ItemsStep i further arg a (it :: items) r a''

/-- What happens for all the items. Here, `err` is whether there are errors already. -/
inductive Walk (args : List Str) (err : Bool) : Progress → List Group → Outcome → Progress → Prop
  | deleg {a : Progress} {gs : List Group} {k : Nat} : a.matching = true → D.First k a.word → D.IsDeleg k →
      Walk args err a gs (.deleg k (indexOf args gs)) a
  | invoke {a : Progress} {k : Nat} : a.matching = true → D.First k a.word → ¬ D.IsDeleg k → err = false → a.reports = [] →
      Walk args err a [] (.invoke k) a
  | error {a : Progress} {k : Nat} : a.matching = true → D.First k a.word → ¬ D.IsDeleg k → err = true ∨ a.reports ≠ [] → Walk args err a [] .failed a
  | tooFew {a : Progress} : a.matching = true → (∀ k, ¬ D.Accepts k a.word) → Walk args err a [] .failed (a.report args.length .tooFew)
  | ended {a : Progress} : a.matching = false → Walk args err a [] .failed a
  | stop {a a' : Progress} {g : Group} {gs : List Group} {arg : Str} {o : Outcome} : (a.matching = true → ∀ k, D.First k a.word → ¬ D.IsDeleg k) →
      args[g.index]? = some arg → ItemsStep D g.index g.further arg a g.items (some o) a' → Walk args err a (g :: gs) o a'
  | next {a a' a'' : Progress} {g : Group} {gs : List Group} {arg : Str} {o : Outcome} : (a.matching = true → ∀ k, D.First k a.word → ¬ D.IsDeleg k) →
      args[g.index]? = some arg → ItemsStep D g.index g.further arg a g.items none a' → Walk args err a' gs o a'' → Walk args err a (g :: gs) o a''

end Verif.CliProc
