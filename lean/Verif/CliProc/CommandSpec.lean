import Verif.CliProc.ProcessSpec
import Verif.CliProc.Command
import Verif.CliPattern.ArgsSpec
import Verif.CliSpec.RecLemmas
/-!
What the processing of a command line does.
-/
namespace Verif.CliProc

open Verif.CliPattern Verif.CliSpec

variable {σ : Type}

/-- An option was given: What is to be done, the index of the argument, the name by which it was given, and its argument. -/
structure Deed (σ : Type) where
  act : Option Str → σ → Bool × σ
  index : Nat
  name : OptName
  value : Option Str

/-- What is to be done for options. -/
def deedsOf (act : Act σ) (l : List (Nat × Nat × OptName × Option Str)) : List (Deed σ) := l.map fun g => ⟨act g.2.1, g.1, g.2.2.1, g.2.2.2⟩

/-- The error when the argument of an option is bad. -/
def Deed.error (d : Deed σ) (good : Bool) : List (Nat × Report) :=
  match d.value with
  | some v => if good then [] else [(d.index, .badOptionArg v (form d.name))]
  | none => []

/-- Options are acted on, one after the other. The result is the final state, and the errors. -/
def perform : List (Deed σ) → σ → σ × List (Nat × Report)
  | [], w => (w, [])
  | d :: ds, w =>
    let r := d.act d.value w
    let q := perform ds r.2
    (q.1, d.error r.1 ++ q.2)

/-- What is left behind by a processor that delegates: Options to act on, and errors. -/
structure Carries (args : List Str) (L : Level σ) (ds : List (Deed σ)) (es : List (Nat × Report)) : Prop where
  deeds : ∃ g, List.Forall₂ (Shows args) L.invocations g ∧ ds = deedsOf L.act g
  errors : L.errors = es

/-- What is left behind by all the processors that have delegated, one to the next. -/
structure Chain (args : List Str) (parents : List (Level σ)) (ds : List (Deed σ)) (es : List (Nat × Report)) : Prop where
  parts : ∃ parts : List (List (Deed σ) × List (Nat × Report)), List.Forall₂ (fun L p => Carries args L p.1 p.2) parents parts ∧
    ds = parts.flatMap Prod.fst ∧ es = parts.flatMap Prod.snd
  hasError : ∀ L, parents.getLast? = some L → (L.hasError = true ↔ es ≠ [])
  deedsIn : ∀ d ∈ ds, d.index < args.length
  errorsIn : ∀ e ∈ es, e.1 ≤ args.length

/-- `es'` are the errors of `es` in the order of arguments. Errors about the same argument are in the same order as they were. -/
structure InOrder (es es' : List (Nat × Report)) : Prop where
  ordered : es'.Pairwise (fun x y => x.1 ≤ y.1)
  same : ∀ i, es'.filter (fun x => decide (x.1 = i)) = es.filter (fun x => decide (x.1 = i))

/-- The errors are reported. The first eight of them are logged if there is no error handler. -/
def Fails (root : Root σ) (es : List (Nat × Report)) (w : σ) (r : Result σ) : Prop :=
  es ≠ [] ∧ ∃ es', InOrder es es' ∧
    match root.handler with
    | some handle => r = (true, some (handle es' 1 w).1, (handle es' 1 w).2)
    | none => r = (true, some 1, (es'.take 8).foldl (fun w x => root.log x.2 w) w)

/-- A pattern was invoked with the given exit status. The exit status matters only if the pattern is completing. -/
def Succeeds (completing : Prop) (status : Int) (w : σ) (r : Result σ) : Prop :=
  (completing ∧ r = (true, some status, w)) ∨ (¬ completing ∧ r = (false, none, w))

variable (D : Cmd)

/-- What patterns are matched against, as `TakenAll`, together with the indexes of arguments. -/
inductive TakenAt : List (Tok × Nat) → List Group → List (Tok × Nat) → Prop
  | done {u : List (Tok × Nat)} : TakenAt u [] u
  | next {u w : List (Tok × Nat)} {g : Group} {gs : List Group} {new : List Tok} : Taken D g.further (u.map Prod.fst) g.items (u.map Prod.fst ++ new) →
      TakenAt (u ++ new.map fun t => (t, g.index)) gs w → TakenAt u (g :: gs) w

/-- The symbols in an expression. -/
def leavesOf : Option Expr → List (LeafKind × Str)
  | none => []
  | some e => leaves e

/-- `Receives D good k u ts vs`: When `u` is matched against the pattern with index `k`, then `vs` goes with parameters of the types `ts`. Here, `good` is whether an
argument can be parsed. -/
def Receives (good : Ty → Nat → Bool) (k : Nat) (u : List (Tok × Nat)) (ts : Ty) (vs : Val) : Prop :=
  ∃ oe ms, D.es[k]? = some oe ∧ Path (patOf slotOrNot oe) 0 (ms.map MatchPos.pos) ∧
    List.Forall₂ (fun (x : Tok × Nat) (m : MatchPos) => m.argIndex = x.2 ∧ ∃ y, (leavesOf oe)[m.pos]? = some y ∧ D.Takes x.1 y.1 y.2) u ms ∧
    Value good (patOf slotOrNot oe) 0 ms ts vs

/-- Errors of `Processor::process()`. -/
def processing (l : List (Nat × Message)) : List (Nat × Report) := l.map fun x => (x.1, .processing x.2)

/-- Errors about arguments for patterns. -/
def badPatternArgs (args : List Str) (l : List Nat) : List (Nat × Report) := l.map fun a => (a, .badPatternArg (args[a]?.getD []))

/-- There are no errors in the arguments, and no short-circuiting options, and the pattern with index `k`, which is not delegating, is the first one that matches. -/
structure Invokes (gs : List Group) (k : Nat) (u : List (Tok × Nat)) : Prop where
  clean : ∀ g ∈ gs, ∀ it ∈ g.items, it.wrong = false ∧ ¬ D.ShortsAt it
  taken : TakenAt D [] gs u
  first : D.First k (u.map Prod.fst)
  noDeleg : ¬ D.IsDeleg k

/-- There is delegation after `gs₁`. -/
structure Delegates (gs₁ : List Group) (k : Nat) (u : List (Tok × Nat)) : Prop where
  noShorts : ∀ g ∈ gs₁, ∀ it ∈ g.items, ¬ D.ShortsAt it
  taken : TakenAt D [] gs₁ u
  first : D.First k (u.map Prod.fst)
  deleg : D.IsDeleg k
  notBefore : ¬ D.DelegatesIn [] gs₁

/-- There is an error, and `new` and `l` are the errors that are found, and the options that are given. -/
structure Errs (args : List Str) (gs : List Group) (new : List (Nat × Message)) (l : List (Nat × Nat × OptName × Option Str)) : Prop where
  reported : ∀ x ∈ new, Reported D args gs x.1 x.2
  ordered : Ordered new
  given : ∃ l', GivenAll D gs l' ∧ l <+: l'
  noDeleg : ∀ gs₁ gs₂ k u, gs = gs₁ ++ gs₂ → ¬ Delegates D gs₁ k u
  complete : (∀ k, ¬ D.IsDeleg k) → (∀ g ∈ gs, ∀ it ∈ g.items, ¬ D.ShortsAt it) ∧ GivenAll D gs l ∧ new.filter (!·.2.ofPattern) = itemErrors args gs ∧
    (new = [] ↔ (∀ g ∈ gs, ∀ it ∈ g.items, it.wrong = false) ∧ ∃ u k, TakenAll D [] gs u ∧ D.Accepts k u)

/-- What the processing of a command line does. The arguments of a processor are made of `gs`, and what was left behind by other processors is `ds` and `es`. -/
inductive Does (root : Root σ) (app : App σ) (args : List Str) (gs : List Group) (parents : List (Level σ)) (ds : List (Deed σ)) (es : List (Nat × Report)) (w : σ) :
    Result σ → Prop
  /-- A short-circuiting option is acted on, but no other option. -/
  | shorted {j : Nat} : D.FirstShort (gs.flatMap Group.items) j → (∀ gs₁ gs₂ k u, gs = gs₁ ++ gs₂ → ¬ Delegates D gs₁ k u) →
      Does root app args gs parents ds es w (true, some 0, (app.act j none w).2)
  /-- The rest is left for another processor. -/
  | deleg {gs₁ gs₂ : List Group} {k : Nat} {u : List (Tok × Nat)} {l : List (Nat × Nat × OptName × Option Str)} {L : Level σ} : gs = gs₁ ++ gs₂ →
      Delegates D gs₁ k u → GivenAll D gs₁ l → Carries args L (deedsOf app.act l) (processing (itemErrors args gs₁)) →
      Chain args (parents ++ [L]) (ds ++ deedsOf app.act l) (es ++ processing (itemErrors args gs₁)) →
      Does root app args gs parents ds es w (true, some (app.deleg k (parents ++ [L]) (indexOf args gs₂) w).1, (app.deleg k (parents ++ [L]) (indexOf args gs₂) w).2)
  /-- Options are acted on, and the pattern has no function. -/
  | null {k : Nat} {u : List (Tok × Nat)} {l : List (Nat × Nat × OptName × Option Str)} {d : PatternDecl} {w' : σ} {r : Result σ} : es = [] → Invokes D gs k u →
      GivenAll D gs l → D.ps[k]? = some d → d.action = .null → perform (ds ++ deedsOf app.act l) w = (w', []) → Succeeds (d.attr.toNat % 2 = 1) 0 w' r →
      Does root app args gs parents ds es w r
  /-- Options are acted on, and then the function of the pattern is called. -/
  | func {k : Nat} {u : List (Tok × Nat)} {l : List (Nat × Nat × OptName × Option Str)} {d : PatternDecl} {ts : Ty} {vs : Val} {w' : σ} {r : Result σ} : es = [] →
      Invokes D gs k u → GivenAll D gs l → D.ps[k]? = some d → d.action = .func ts → perform (ds ++ deedsOf app.act l) w = (w', []) →
      Receives D (fun τ a => root.parse τ (args[a]?.getD [])) k u ts vs → bads vs = [] →
      Succeeds (d.attr.toNat % 2 = 1) (app.func k vs w').1 (app.func k vs w').2 r → Does root app args gs parents ds es w r
  /-- Options are acted on, but arguments of some of them are bad. -/
  | badNull {k : Nat} {u : List (Tok × Nat)} {l : List (Nat × Nat × OptName × Option Str)} {d : PatternDecl} {w' : σ} {bad : List (Nat × Report)} {r : Result σ} :
      es = [] → Invokes D gs k u → GivenAll D gs l → D.ps[k]? = some d → d.action = .null → perform (ds ++ deedsOf app.act l) w = (w', bad) →
      Fails root bad w' r → Does root app args gs parents ds es w r
  /-- Options are acted on, but arguments of some of them are bad, or some arguments for the pattern are bad. -/
  | badFunc {k : Nat} {u : List (Tok × Nat)} {l : List (Nat × Nat × OptName × Option Str)} {d : PatternDecl} {ts : Ty} {vs : Val} {w' : σ} {bad : List (Nat × Report)}
      {r : Result σ} : es = [] → Invokes D gs k u → GivenAll D gs l → D.ps[k]? = some d → d.action = .func ts →
      perform (ds ++ deedsOf app.act l) w = (w', bad) → Receives D (fun τ a => root.parse τ (args[a]?.getD [])) k u ts vs →
      Fails root (bad ++ badPatternArgs args (bads vs)) w' r → Does root app args gs parents ds es w r
  /-- There are errors. Options are acted on only to find further errors. -/
  | failed {new : List (Nat × Message)} {l : List (Nat × Nat × OptName × Option Str)} {w' : σ} {bad : List (Nat × Report)} {r : Result σ} :
      Errs D args gs new l → es ≠ [] ∨ new ≠ [] → perform (ds ++ deedsOf app.act l) w = (w', bad) →
      Fails root (es ++ processing new ++ bad) w' r → Does root app args gs parents ds es w r

/-- As `Made`, but for particular tables. -/
structure Ready (env : Env) (D : Cmd) (c : Ctx) (t : Tables) (m : Matcher) : Prop where
  he : EnvOk env
  built : ∃ ps config, (∀ d ∈ ps, d.action.Typed) ∧ D.ps = withDefault ps ∧ Builds env D.ds ps (.ok ⟨c.reg, t, c.patterns⟩) ∧
    Constructs t (c.patterns.map PatternInfo.spec) c.args.length config (.ok m)
  options : AllDeclared env D.ds D.os
  patterns : List.Forall₂ (PatternDeclared env D.ds D.os) D.ps D.es

/-- The outcome of `process()`, if the limit on the number of steps is high enough. -/
def Yields (root : Root σ) (app : App σ) (c : Ctx) (t : Tables) (m : Matcher) (parents : List (Level σ)) (offset : Nat) (w : σ) (r : Result σ) : Prop :=
  ∃ n, ∀ fuel, n ≤ fuel → processAll fuel root app c t m parents offset w = some r

end Verif.CliProc
