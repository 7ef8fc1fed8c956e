import Verif.CliSpec.ConstructSpec
import Verif.CliPattern.Constructs
import Verif.CliProc.Process
/-!
What command-line arguments mean.
-/
namespace Verif.CliProc

open Verif.CliPattern Verif.CliSpec

/-- What is specified: Options and patterns, both as declared, and as understood. -/
structure Cmd where
  ds : List OptionDecl
  os : List (List Form × ArgSpec)
  ps : List PatternDecl
  es : List (Option Expr)

variable (D : Cmd)

/-- The option is declared, or used in a pattern. -/
def Cmd.Known (n : OptName) : Prop := (∃ j, Has D.os j n) ∨ ∃ k l, Uses D.es k l ∧ leafName k l = some n

/-- The option can have an argument. -/
def Cmd.Allows (n : OptName) : Prop := ∃ j p, Has D.os j n ∧ D.os[j]? = some p ∧ p.2.allow = true

/-- The option must have an argument. -/
def Cmd.Requires (n : OptName) : Prop := ∃ j p, Has D.os j n ∧ D.os[j]? = some p ∧ p.2.require = true

/-- The option is declared to be short-circuiting. -/
def Cmd.Shorts (n : OptName) : Prop := ∃ j d, Has D.os j n ∧ D.ds[j]? = some d ∧ d.shortCircuit

/-- The option is declared such that further arguments are values. -/
def Cmd.EndsOptions (n : OptName) : Prop := ∃ j d, Has D.os j n ∧ D.ds[j]? = some d ∧ d.furtherArgs

/-- What command-line arguments are made of: An option with or without an argument, an option that is not known, an option whose argument is
missing, an option with an argument, but which cannot have one, and an argument that is not an option. An option is the first in the
argument, or it follows others in a compound of short options. -/
inductive Item where
  | option (n : OptName) (value : Option Str)
  | unknown (n : OptName) (first : Bool)
  | missing (n : OptName) (first : Bool)
  | unexpected (n : OptName) (value : Str)
  | word (s : Str)
deriving DecidableEq, Repr

/-- `Compound D first cs next items two`: In a compound of short options, where `cs` is what remains of it, and `next` is the next argument, if
there is one, the items are as listed. `two` is whether the next argument is the argument of the last option. -/
inductive Compound : Bool → Str → Option Str → List Item → Bool → Prop
  | done {next : Option Str} : Compound false [] next [] false
  | plain {first two : Bool} {c : Nat} {cs : Str} {next : Option Str} {items : List Item} : D.Known (.short c) → ¬ D.Allows (.short c) → cs.head? ≠ some 45 →
      Compound false cs next items two → Compound first (c :: cs) next (.option (.short c) none :: items) two
  | unexpected {first : Bool} {c : Nat} {cs : Str} {next : Option Str} : D.Known (.short c) → ¬ D.Allows (.short c) → cs.head? = some 45 →
      Compound first (c :: cs) next [.unexpected (.short c) cs] false
  | attached {first : Bool} {c : Nat} {cs : Str} {next : Option Str} : D.Allows (.short c) → cs ≠ [] →
      Compound first (c :: cs) next [.option (.short c) (some cs)] false
  | bare {first : Bool} {c : Nat} {next : Option Str} : D.Allows (.short c) → ¬ D.Requires (.short c) →
      Compound first [c] next [.option (.short c) none] false
  | separate {first : Bool} {c : Nat} {v : Str} : D.Requires (.short c) → Compound first [c] (some v) [.option (.short c) (some v)] true
  | missing {first : Bool} {c : Nat} : D.Requires (.short c) → Compound first [c] none [.missing (.short c) first] false
  | unknown {first : Bool} {c : Nat} {cs : Str} {next : Option Str} : ¬ D.Known (.short c) →
      Compound first (c :: cs) next [.unknown (.short c) first] false

/-- `Reads D further s next items two`: The argument `s`, when it is followed by `next`, is made of the items. Here, `further` is whether arguments
are only values at this point. -/
inductive Reads (further : Bool) : Str → Option Str → List Item → Bool → Prop
  | word {s : Str} {next : Option Str} : further = true ∨ s.length < 2 ∨ s.head? ≠ some 45 → Reads further s next [.word s] false
  | short {c : Nat} {cs : Str} {next : Option Str} {items : List Item} {two : Bool} : further = false → c ≠ 45 → Compound D true (c :: cs) next items two →
      Reads further (45 :: c :: cs) next items two
  | long {l : Str} {next : Option Str} : further = false → 61 ∉ l → D.Known (.long l) → ¬ D.Requires (.long l) →
      Reads further (45 :: 45 :: l) next [.option (.long l) none] false
  | assigned {l v : Str} {next : Option Str} : further = false → 61 ∉ l → D.Allows (.long l) →
      Reads further (45 :: 45 :: (l ++ 61 :: v)) next [.option (.long l) (some v)] false
  | unexpected {l v : Str} {next : Option Str} : further = false → 61 ∉ l → D.Known (.long l) → ¬ D.Allows (.long l) →
      Reads further (45 :: 45 :: (l ++ 61 :: v)) next [.unexpected (.long l) v] false
  | separate {l v : Str} : further = false → 61 ∉ l → D.Requires (.long l) → Reads further (45 :: 45 :: l) (some v) [.option (.long l) (some v)] true
  | missing {l : Str} : further = false → 61 ∉ l → D.Requires (.long l) → Reads further (45 :: 45 :: l) none [.missing (.long l) true] false
  | unknown {l : Str} {next : Option Str} : further = false → 61 ∉ l → ¬ D.Known (.long l) →
      Reads further (45 :: 45 :: l) next [.unknown (.long l) true] false
  | unknownAssigned {l v : Str} {next : Option Str} : further = false → 61 ∉ l → ¬ D.Known (.long l) →
      Reads further (45 :: 45 :: (l ++ 61 :: v)) next [.unknown (.long l) true] false

/-- What is read from one argument, or from two when the second one is the argument of an option in the first one: The index of the (first)
argument, whether arguments are only values at this point, and the items. -/
structure Group where
  index : Nat
  further : Bool
  items : List Item
deriving DecidableEq, Repr

/-- `ReadsAll D further i args gs`: The arguments `args`, when the first one has the index `i`, are made of `gs`. -/
inductive ReadsAll : Bool → Nat → List Str → List Group → Prop
  | done {further : Bool} {i : Nat} : ReadsAll further i [] []
  | one {further further' : Bool} {i : Nat} {s : Str} {args : List Str} {items : List Item} {gs : List Group} :
      Reads D further s args.head? items false → (further' = true ↔ further = true ∨ ∃ n v, .option n v ∈ items ∧ D.EndsOptions n) →
      ReadsAll further' (i + 1) args gs → ReadsAll further i (s :: args) (⟨i, further, items⟩ :: gs)
  | two {further further' : Bool} {i : Nat} {s v : Str} {args : List Str} {items : List Item} {gs : List Group} :
      Reads D further s (some v) items true → (further' = true ↔ further = true ∨ ∃ n v, .option n v ∈ items ∧ D.EndsOptions n) →
      ReadsAll further' (i + 2) args gs → ReadsAll further i (s :: v :: args) (⟨i, further, items⟩ :: gs)

/-- What patterns are matched against. -/
inductive Tok where
  | keyword (l : Str)
  | option (n : OptName)
  | value
deriving DecidableEq, Repr

/-- `Takes D t k l`: The symbol in a pattern is matched. An option can be matched by any of its names. -/
def Cmd.Takes : Tok → LeafKind → Str → Prop
  | .keyword l, k, l' => k = .keyword ∧ l' = l
  | .option n, k, l' => ∃ n', leafName k l' = some n' ∧ (n' = n ∨ ∃ j, Has D.os j n ∧ Has D.os j n')
  | .value, k, _ => k = .slot

/-- What a pattern matches when it may be blank. -/
def MatchesOpt : Option Expr → List (LeafKind × Str) → Prop
  | none, w => w = []
  | some e, w => Matches e w

/-- `Accepts D k u`: The pattern with index `k` matches `u`. -/
def Cmd.Accepts (k : Nat) (u : List Tok) : Prop :=
  ∃ oe v, D.es[k]? = some oe ∧ MatchesOpt oe v ∧ List.Forall₂ (fun t (x : LeafKind × Str) => D.Takes t x.1 x.2) u v

/-- The pattern with index `k` is the first one that matches `u`. -/
def Cmd.First (k : Nat) (u : List Tok) : Prop := D.Accepts k u ∧ ∀ j, j < k → ¬ D.Accepts j u

/-- The pattern with index `k` is delegating. -/
def Cmd.IsDeleg (k : Nat) : Prop := ∃ d, D.ps[k]? = some d ∧ d.action.isDeleg = true

/-- Some pattern matches something that begins with `u`. -/
def Cmd.Begins (u : List Tok) : Prop := ∃ k v, D.Accepts k (u ++ v)

/-- Some pattern matches something that is longer than `u`, and begins with it. -/
def Cmd.GoesOn (u : List Tok) : Prop := ∃ k v, v ≠ [] ∧ D.Accepts k (u ++ v)

/-- Some delegating pattern matches something that begins with `u`. -/
def Cmd.MayDelegate (u : List Tok) : Prop := ∃ k v, D.IsDeleg k ∧ D.Accepts k (u ++ v)

/-- How an option is written. -/
def form : OptName → Str
  | .short c => [45, c]
  | .long l => 45 :: 45 :: l

/-- The option is used in a pattern. -/
def Cmd.InPattern (n : OptName) : Prop := OptUsed D.os D.es n

/-- `Turns D further u it t`: When the item follows `u`, it is to be matched as `t`. A word is a keyword if there is a pattern that goes on with it. -/
inductive Turns (further : Bool) (u : List Tok) : Item → Tok → Prop
  | option {n : OptName} : D.InPattern n → Turns further u (.option n none) (.option n)
  | keyword {s : Str} : further = false → D.Begins (u ++ [.keyword s]) → Turns further u (.word s) (.keyword s)
  | value {s : Str} : ¬ (further = false ∧ D.Begins (u ++ [.keyword s])) → Turns further u (.word s) .value

/-- The item has nothing to do with patterns. -/
def Cmd.Apart : Item → Prop
  | .option n v => ¬ D.InPattern n ∨ v ≠ none
  | .missing _ _ | .unexpected _ _ => True
  | _ => False

/-- `Taken D further items u v`: If `u` has been matched so far, then with the items, `v` has been matched. -/
inductive Taken (further : Bool) : List Tok → List Item → List Tok → Prop
  | done {u : List Tok} : Taken further u [] u
  | apart {u v : List Tok} {it : Item} {items : List Item} : D.Apart it → Taken further u items v → Taken further u (it :: items) v
  | turns {u v : List Tok} {it : Item} {items : List Item} {t : Tok} : Turns D further u it t → D.Begins (u ++ [t]) →
      Taken further (u ++ [t]) items v → Taken further u (it :: items) v

/-- The same for groups. -/
inductive TakenAll : List Tok → List Group → List Tok → Prop
  | done {u : List Tok} : TakenAll u [] u
  | next {u v w : List Tok} {g : Group} {gs : List Group} : Taken D g.further u g.items v → TakenAll v gs w → TakenAll u (g :: gs) w

/-- The options that are declared, and their arguments. The number is the index of the option. -/
inductive Given : List Item → List (Nat × OptName × Option Str) → Prop
  | done : Given [] []
  | declared {n : OptName} {v : Option Str} {j : Nat} {items : List Item} {l : List (Nat × OptName × Option Str)} : Has D.os j n → Given items l →
      Given (.option n v :: items) ((j, n, v) :: l)
  | other {it : Item} {items : List Item} {l : List (Nat × OptName × Option Str)} : (∀ n v j, it = .option n v → ¬ Has D.os j n) → Given items l →
      Given (it :: items) l

/-- The same for groups. The first number is the index of the argument. -/
inductive GivenAll : List Group → List (Nat × Nat × OptName × Option Str) → Prop
  | done : GivenAll [] []
  | next {g : Group} {gs : List Group} {l : List (Nat × OptName × Option Str)} {l' : List (Nat × Nat × OptName × Option Str)} : Given D g.items l →
      GivenAll gs l' → GivenAll (g :: gs) (l.map (fun x => (g.index, x)) ++ l')

/-- The item is an error. -/
def Item.wrong : Item → Bool
  | .unknown _ _ | .missing _ _ | .unexpected _ _ => true
  | .option _ _ | .word _ => false

/-- The item is a short-circuiting option. -/
def Cmd.ShortsAt (it : Item) : Prop := ∃ n v, it = .option n v ∧ D.Shorts n

/-- The first short-circuiting option is the one with index `j`. -/
def Cmd.FirstShort (items : List Item) (j : Nat) : Prop :=
  ∃ is n v is', items = is ++ .option n v :: is' ∧ Has D.os j n ∧ D.Shorts n ∧ ∀ it ∈ is, ¬ D.ShortsAt it

/-- The index of the first argument in a list of groups that reaches to the end. -/
def indexOf (args : List Str) : List Group → Nat
  | [] => args.length
  | g :: _ => g.index

/-- The message for an unknown option. -/
def unknownMessage (n : OptName) (first : Bool) (arg : Str) : Message := if first then .unknown (form n) else .unknownInCompound (form n) arg

/-- The message for an option with a missing argument. -/
def missingMessage (n : OptName) (first : Bool) (arg : Str) : Message := if first then .missing (form n) else .missingIn (form n) arg

/-- The error that an item in the argument `arg` is. -/
def Item.message (arg : Str) : Item → Option Message
  | .unknown n first => some (unknownMessage n first arg)
  | .missing n first => some (missingMessage n first arg)
  | .unexpected n v => some (.notAllowed v (form n) arg)
  | .option _ _ | .word _ => none

/-- The errors that items are, in order. -/
def itemErrors (args : List Str) (gs : List Group) : List (Nat × Message) :=
  gs.flatMap fun g => g.items.filterMap fun it => (it.message (args[g.index]?.getD [])).map fun m => (g.index, m)

/-- The error is about the matching of patterns. -/
def Message.ofPattern : Message → Bool
  | .tooFew | .mismatching _ | .extraneous _ => true
  | _ => false

/-- `Reported D args gs i m`: There is an error in the argument with index `i`, and `m` is the message. -/
inductive Reported (args : List Str) (gs : List Group) : Nat → Message → Prop
  | item {g : Group} {it : Item} {arg : Str} {m : Message} : g ∈ gs → it ∈ g.items → args[g.index]? = some arg → it.message arg = some m →
      Reported args gs g.index m
  | mismatching {gs₁ gs₂ : List Group} {g : Group} {is is' : List Item} {it : Item} {u v : List Tok} {t : Tok} {arg : Str} : gs = gs₁ ++ g :: gs₂ →
      g.items = is ++ it :: is' → TakenAll D [] gs₁ u → Taken D g.further u is v → Turns D g.further v it t → ¬ D.Begins (v ++ [t]) → D.GoesOn v →
      args[g.index]? = some arg → Reported args gs g.index (.mismatching arg)
  | extraneous {gs₁ gs₂ : List Group} {g : Group} {is is' : List Item} {it : Item} {u v : List Tok} {t : Tok} {arg : Str} : gs = gs₁ ++ g :: gs₂ →
      g.items = is ++ it :: is' → TakenAll D [] gs₁ u → Taken D g.further u is v → Turns D g.further v it t → ¬ D.Begins (v ++ [t]) → ¬ D.GoesOn v →
      args[g.index]? = some arg → Reported args gs g.index (.extraneous arg)
  | tooFew {u : List Tok} : TakenAll D [] gs u → (∀ k, ¬ D.Accepts k u) → Reported args gs args.length .tooFew

/-- The invocation of an option is of the option with index `j`, as it was given by the name `n` in the argument with index `i`, with the argument `v`. -/
def Shows (args : List Str) (x : Invocation) (g : Nat × Nat × OptName × Option Str) : Prop :=
  x.option = g.2.1 ∧ x.occurrence.argIndex = g.1 ∧ argOf args x.occurrence = some g.2.2.2 ∧
    ∃ arg, args[g.1]? = some arg ∧ optForm arg x.occurrence = some (form g.2.2.1)

/-- A delegating pattern is matched before all of the groups have been. -/
def Cmd.DelegatesIn (u : List Tok) (gs : List Group) : Prop :=
  ∃ gs₁ gs₂ v k, gs = gs₁ ++ gs₂ ∧ gs₂ ≠ [] ∧ TakenAll D u gs₁ v ∧ D.First k v ∧ D.IsDeleg k

/-- The errors are in the order of the arguments. -/
def Ordered (l : List (Nat × Message)) : Prop := l.Pairwise (fun x y => x.1 ≤ y.1)

/-- The specification `D` has been accepted, and `c` and `m` are the resulting specification object and pattern matcher. The options and the patterns are
as they are understood according to C85 - C88. -/
structure Made (env : Env) (D : Cmd) (c : Ctx) (m : Matcher) : Prop where
  he : EnvOk env
  built : ∃ ps t config, (∀ d ∈ ps, d.action.Typed) ∧ D.ps = withDefault ps ∧ Builds env D.ds ps (.ok ⟨c.reg, t, c.patterns⟩) ∧
    Constructs t (c.patterns.map PatternInfo.spec) c.args.length config (.ok m)
  options : AllDeclared env D.ds D.os
  patterns : List.Forall₂ (PatternDeclared env D.ds D.os) D.ps D.es

/-- `Processes c offset m err invs errs o s`: The outcome of `process()` is `o`, and the state at the end is `s`, if the limit on the number of steps is
high enough. -/
def Processes (c : Ctx) (offset : Nat) (m : Matcher) (err : Bool) (invs : List Invocation) (errs : List (Nat × Message)) (o : Outcome) (s : St) : Prop :=
  ∃ n, ∀ fuel, n ≤ fuel → process fuel c offset m err invs errs = some (o, s)

end Verif.CliProc
