import Verif.Log.Model

/-!
# What loggers are supposed to do

A logger is described by its channels. A channel is described by the routes that messages take to root loggers. Each route has a prefix, and
a number of log level limits.
-/

namespace Verif.Log

/-- The lines of a message. -/
def lines : List Char → List (List Char)
  | [] => [[]]
  | c :: rest => if c = '\n' then [] :: lines rest else (lines rest).modifyHead (c :: ·)

/-- How a message must look in the output of a root logger: every line has the full prefix, and is terminated. -/
def render (pre message : List Char) : List Char := (lines message).flatMap (fun line => pre ++ line ++ ['\n'])

/-- A route to a root logger. -/
structure Route (S : Type) where
  root : Root
  text : S → List Char := fun _ => []
  limits : List (S → ℕ) := []

/-- Add to the prefix of a route. -/
def Route.addText {S : Type} (text : S → List Char) (r : Route S) : Route S := { r with text := fun s => r.text s ++ text s }

/-- Add a limit to a route. -/
def Route.addLimit {S : Type} (limit : S → ℕ) (r : Route S) : Route S := { r with limits := limit :: r.limits }

/-- All limits of the route allow the level. -/
def Route.Open {S : Type} (r : Route S) (s : S) (level : ℕ) : Prop := ∀ l ∈ r.limits, level ≤ l s

instance {S : Type} (r : Route S) (s : S) (level : ℕ) : Decidable (r.Open s level) := by unfold Route.Open; infer_instance

/-- What is written as a result of a message being sent along a route. -/
def Route.deliver {S : Type} (s : S) (level : ℕ) (pre message : List Char) (r : Route S) : List (ℕ × List Char) :=
  if r.Open s level then [(r.root.id, render (r.text s ++ pre ++ r.root.levelText level) message)] else []

/-- A channel: its routes, and the limit that is reported for it. -/
structure Chan (S : Type) where
  routes : List (Route S)
  limit : S → ℕ

/-- Add to the prefix of a channel. -/
def Chan.addText {S : Type} (text : S → List Char) (c : Chan S) : Chan S := { c with routes := c.routes.map (Route.addText text) }

/-- What is supposed to be known about a logger. The reported log level limit is tied when it is the one of the selected channel. -/
structure Desc (N S : Type) where
  chan : N → Option (Chan S)
  pre : S → List Char
  selected : N
  limit : S → ℕ
  tied : Bool

variable {N S : Type} [LinearOrder N]

/-- The messages that must be written when a message is logged. -/
def Desc.expected (d : Desc N S) (s : S) (level : ℕ) (message : List Char) : List (ℕ × List Char) :=
  match d.chan d.selected with
  | some c => c.routes.flatMap (Route.deliver s level (d.pre s) message)
  | none => []

/-- The limit that is reported for a channel. -/
def Desc.limitOf (d : Desc N S) (name : N) : S → ℕ :=
  match d.chan name with
  | some c => c.limit
  | none => fun _ => 0

/-- A root logger has one channel, and no limits. -/
def Desc.root (root : Root) (name : N) : Desc N S where
  chan := fun n => if n = name then some ⟨[{ root }], fun _ => all⟩ else none
  pre := fun _ => []
  selected := name
  limit := fun _ => all
  tied := true

/-- A null logger has one channel with no routes. -/
def Desc.null (name : N) : Desc N S where
  chan := fun n => if n = name then some ⟨[], fun _ => off⟩ else none
  pre := fun _ => []
  selected := name
  limit := fun _ => off
  tied := true

/-- A logger with a particular channel selected, and an addition to the prefix. -/
def Desc.derive (d : Desc N S) (name : N) (text : S → List Char) : Desc N S where
  chan := d.chan
  pre := fun s => d.pre s ++ text s
  selected := name
  limit := d.limitOf name
  tied := true

/-- A limit is added to all routes of the matching channels. -/
def Desc.limited (d : Desc N S) (limit : S → ℕ) (isMatch : N → Bool) : Desc N S where
  chan := fun n => (d.chan n).map (fun c => if isMatch n then ⟨c.routes.map (Route.addLimit limit), limit⟩ else c)
  pre := d.pre
  selected := d.selected
  limit := limit
  tied := isMatch d.selected

/-- A rule that refers to a channel of a target logger. -/
structure Target (N S : Type) where
  name : N
  desc : Desc N S
  channel : N

/-- The last one of the targets with the specified name. -/
def lastTarget (targets : List (Target N S)) (name : N) : Option (Target N S) := (targets.filter (fun t => t.name = name)).getLast?

/-- The channel that is referred to. -/
def Target.chan (t : Target N S) : Option (Chan S) := (t.desc.chan t.channel).map (Chan.addText t.desc.pre)

/-- Channels are introduced or replaced. The prefixes of the loggers become part of the prefixes of the channels. -/
def Desc.withChannels (d : Desc N S) (targets : List (Target N S)) : Desc N S :=
  let chan := fun n => match lastTarget targets n with
    | some t => t.chan
    | none => (d.chan n).map (Chan.addText d.pre)
  { chan, pre := fun _ => [], selected := d.selected, tied := true
    limit := match chan d.selected with
      | some c => c.limit
      | none => fun _ => 0 }

/-- Messages go both to the original channel, and to the target channel. -/
def both (a b : Chan S) : Chan S := ⟨a.routes ++ b.routes, fun s => max (a.limit s) (b.limit s)⟩

/-- The messages on particular channels are duplicated. -/
def Desc.duplicated (d : Desc N S) (targets : List (Target N S)) : Desc N S :=
  let chan := fun n => match (d.chan n).map (Chan.addText d.pre), (lastTarget targets n).map Target.chan with
    | some a, some (some b) => some (both a b)
    | some a, _ => some a
    | none, _ => none
  { chan, pre := fun _ => [], selected := d.selected, tied := true
    limit := match chan d.selected with
      | some c => c.limit
      | none => fun _ => 0 }

/-- A rule along with the description of its target. -/
structure Ref (N S : Type) where
  rule : Rule N S
  desc : Desc N S
  channel : N

/-- The description of the target of a rule. -/
def Ref.target (x : Ref N S) : Target N S := ⟨x.rule.name, x.desc, x.channel⟩

/-- The rule is the result of the construction with or without a particular channel. -/
def Ref.Valid (x : Ref N S) : Prop :=
  (x.rule = Rule.new x.rule.name x.rule.logger ∧ x.channel = x.desc.selected) ∨
  Rule.newOn x.rule.name x.rule.logger x.channel = .ok x.rule

/-- The loggers that can be constructed, along with what is supposed to be known about them. A fixed limit must not be changed after
construction. -/
inductive Built : Logger N S → Desc N S → Prop
  | root (root : Root) (name : N) : Built (rootLogger root name) (Desc.root root name)
  | null (name : N) : Built (nullLogger name) (Desc.null name)
  | copy {L : Logger N S} {d : Desc N S} : Built L d → Built (copy L) (d.derive d.selected (fun _ => []))
  | select {L L' : Logger N S} {d : Desc N S} (name : N) : Built L d → select L name = .ok L' → Built L' (d.derive name (fun _ => []))
  | pre {L : Logger N S} {d : Desc N S} (text : S → List Char) : Built L d → Built (prefixLogger L text) (d.derive d.selected text)
  | preOn {L L' : Logger N S} {d : Desc N S} (text : S → List Char) (name : N) : Built L d → prefixLoggerOn L text name = .ok L' →
      Built L' (d.derive name text)
  | limited {L L' : Logger N S} {d : Desc N S} (limit : Limit S) (isMatch : N → Bool) : Built L d →
      (∀ f, limit.fixed = some f → ∀ s, limit.level s = f) → limitLogger L limit isMatch = .ok L' → Built L' (d.limited limit.level isMatch)
  | withChannels {L L' : Logger N S} {d : Desc N S} (refs : List (Ref N S)) : Built L d → (∀ x ∈ refs, Built x.rule.logger x.desc) →
      (∀ x ∈ refs, x.Valid) → channelLogger L (refs.map (·.rule)) = .ok L' → Built L' (d.withChannels (refs.map Ref.target))
  | duplicated {L L' : Logger N S} {d : Desc N S} (refs : List (Ref N S)) : Built L d → (∀ x ∈ refs, Built x.rule.logger x.desc) →
      (∀ x ∈ refs, x.Valid) → duplicatingLogger L (refs.map (·.rule)) = .ok L' → Built L' (d.duplicated (refs.map Ref.target))

end Verif.Log
