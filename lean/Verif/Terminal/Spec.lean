import Verif.Terminal.Model
/-!
Styles, and how a terminal reacts to escape sequences of the SGR type (Select Graphic Rendition).
-/
namespace Verif.Terminal.Spec

/-- A style. -/
structure Style where
  weight : Weight
  underline : Bool
  blink : Bool
  reverse : Bool
  color : Option Color
  backgroundColor : Option Color
deriving DecidableEq, Repr

/-- The default style. -/
def Style.default : Style := ⟨.normal, false, false, false, none, none⟩

/-- The style after one of the aspects has been changed. -/
def Style.apply (s : Style) : Op → Style
  | .setWeight w => { s with weight := w }
  | .setUnderline b => { s with underline := b }
  | .setBlink b => { s with blink := b }
  | .setReverse b => { s with reverse := b }
  | .setColor c => { s with color := some c }
  | .unsetColor => { s with color := none }
  | .setBackgroundColor c => { s with backgroundColor := some c }
  | .unsetBackgroundColor => { s with backgroundColor := none }

/-- The style that is described by a sequence of changes to the default style. -/
def Style.make (ops : List Op) : Style := ops.foldl Style.apply .default

/-- There are two kinds of terminals. In the first kind, bold and faint exclude each other. In the second kind, they are independent. -/
inductive Kind
  | exclusive
  | independent
deriving DecidableEq, Repr

/-- The rendition state of a terminal. -/
structure Rendition where
  bold : Bool
  faint : Bool
  underline : Bool
  blink : Bool
  reverse : Bool
  color : Option Color
  backgroundColor : Option Color
deriving DecidableEq, Repr

/-- The rendition state that corresponds to a style. -/
def Style.rendition (s : Style) : Rendition :=
  ⟨s.weight == .bold, s.weight == .faint, s.underline, s.blink, s.reverse, s.color, s.backgroundColor⟩

/-- The colors in the order in which they are numbered. -/
def colors : List Color := [.black, .red, .green, .yellow, .blue, .magenta, .cyan, .white]

/-- The effect of a single parameter. -/
def select (k : Kind) (r : Rendition) (n : Nat) : Rendition :=
  if n = 0 then ⟨false, false, false, false, false, none, none⟩
  else if n = 1 then { r with bold := true, faint := r.faint && k = .independent }
  else if n = 2 then { r with faint := true, bold := r.bold && k = .independent }
  else if n = 4 then { r with underline := true }
  else if n = 5 then { r with blink := true }
  else if n = 7 then { r with reverse := true }
  else if n = 22 then { r with bold := false, faint := false }
  else if n = 24 then { r with underline := false }
  else if n = 25 then { r with blink := false }
  else if n = 27 then { r with reverse := false }
  else if 30 ≤ n ∧ n ≤ 37 then { r with color := colors[n - 30]? }
  else if n = 39 then { r with color := none }
  else if 40 ≤ n ∧ n ≤ 47 then { r with backgroundColor := colors[n - 40]? }
  else if n = 49 then { r with backgroundColor := none }
  else r

/-- The state of the part of the terminal that recognizes escape sequences. In an escape sequence, there is the value of the current parameter,
and there are the preceding parameters. -/
inductive State
  | text
  | escape
  | params (cur : Nat) (prev : List Nat)
deriving DecidableEq, Repr

/-- The effect of a single character. The value of an empty parameter is zero. -/
def receive (k : Kind) (t : State × Rendition) (c : Char) : State × Rendition :=
  match t with
  | (.text, r) => if c = '\x1b' then (.escape, r) else (.text, r)
  | (.escape, r) => if c = '[' then (.params 0 [], r) else (.text, r)
  | (.params cur prev, r) =>
    if c.isDigit then (.params (10 * cur + (c.toNat - 48)) prev, r)
    else if c = ';' then (.params 0 (prev ++ [cur]), r)
    else if c = 'm' then (.text, (prev ++ [cur]).foldl (select k) r)
    else (.text, r)

/-- The effect of a sequence of characters. -/
def receiveAll (k : Kind) (t : State × Rendition) (s : List Char) : State × Rendition := s.foldl (receive k) t

end Verif.Terminal.Spec
